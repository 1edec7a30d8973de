import Verif.Lemmas.JuniperText
import Verif.Lemmas.Wrap
import Verif.Props.JuniperComment

/-!
C184: the text of a Juniper filter says what its terms say.
-/

namespace Verif.Props
open Verif Verif.Juniper Verif.Spec.JunosText Verif.Spec.VersaText Verif.Lemmas.VersaTreeL Verif.Lemmas.JuniperTextL Verif.Policy

/-! ### comments -/

theorem quiet_starred {cs : List Str} (h : ∀ c ∈ cs, Quiet c) : ∀ l ∈ starred cs, Quiet l := by
  intro l hl
  obtain ⟨c, hc, hl⟩ := List.mem_flatMap.1 hl
  obtain ⟨m, hm, rfl⟩ := List.mem_map.1 hl
  have := quiet_infix (Wrap.splitOn_infix hm).1 (h c hc)
  show Quiet (['*', '*'] ++ ' ' :: m)
  exact quiet_join (by decide) (by decide) this (by unfold Quiet; decide)

theorem tells_stars {ls : List Str} (h : ∀ l ∈ ls, Quiet l) : Tells ((['/', '*'] :: ls ++ [['*', '/']]).map plainLine) [] :=
  tells_block ⟨[], by decide, quiet_nil⟩ h ⟨[], by decide, quiet_nil, by simp⟩

theorem tells_given {cs : List Str} (h : ∀ c ∈ cs, Quiet c) :
    Tells ((if cs = [] then [] else [['/', '*']] ++ starred cs ++ [['*', '/']]).map plainLine) [] := by
  split
  · exact tells_nil
  · exact tells_stars (quiet_starred h)

theorem tells_termComment {nv : Bool} {o : Option Str} {cs : List Str} (hc : ∀ c ∈ cs, Quiet c) (ho : ∀ t, o = some t → Quiet t) :
    Tells ((termComment nv o cs).map plainLine) [] := by
  unfold termComment
  cases nv with
  | true => exact tells_nil
  | false =>
    rw [if_neg (by decide)]
    refine tells_given fun c hm => ?_
    rcases List.mem_append.1 hm with hm | hm
    · exact hc c hm
    · match o, ho with
      | none, _ => cases hm
      | some [], _ => cases hm
      | some (d :: t), ho =>
        rw [List.mem_singleton.1 hm]
        show Quiet ("Owner:".toList ++ ' ' :: d :: t)
        exact quiet_join (by decide) (by decide) (ho _ rfl) (by unfold Quiet; decide +kernel)

theorem tells_headerComment {cs : List Str} (hc : ∀ c ∈ cs, Quiet c) : Tells ((headerComment cs).map plainLine) [] := by
  have e : headerComment cs = ['/', '*'] :: (starTags ++ [['*', '*']] ++ starred cs) ++ [['*', '/']] := by
    simp [headerComment]
  rw [e]
  refine tells_stars fun l hl => ?_
  rcases List.mem_append.1 hl with hl | hl
  · exact (by unfold Quiet; decide +kernel : ∀ l ∈ starTags ++ [['*', '*']], Quiet l) l hl
  · exact quiet_starred hc l hl

theorem tells_addressComment (nv ex : Bool) (t : Str) : Tells ((addressComment nv 12 ex t).map plainLine) [] := by
  rcases addressComment_cases (nv := nv) (base := 12) (ex := ex) (text := t) rfl (by omega) with h | ⟨hu, _, ind, p, ps, _, hi, h⟩
  · rw [h]; exact tells_nil
  · have hq : ∀ q ∈ p :: ps, Quiet (PyStr.strip q) := fun q hm =>
      quiet_strip (quiet_infix (hi q hm) (unmarked_take hu 132).2)
    rcases closeLast_marked ind p ps [' ', '/', '*'] with ⟨rfl, e⟩ | ⟨ms, z, rfl, e⟩
    · rw [h, e]
      have := strip_closed (a := [' ']) (m := ['/', '*']) (t := p) (by intro c hc; rw [List.mem_singleton.1 hc]; decide) (by simp)
        (by intro x hx; cases hx; decide)
      refine tells_strip this ?_
      intro r _
      have e : (['/', '*'] ++ ((' ' :: PyStr.strip p ++ [' ']) ++ ['*', '/'])) ++ r =
          '/' :: '*' :: ' ' :: (PyStr.strip p ++ ' ' :: '*' :: '/' :: r) := by simp
      rw [e, lex_note (hq p (by simp))]
      rfl
    · rw [h, e]
      refine tells_block ?_ ?_ ?_
      · obtain ⟨x, h1, h2⟩ := strip_first (' ' :: PyStr.strip p)
        exact ⟨x, h1, quiet_infix h2 (quiet_pre (by decide) (hq p (by simp)))⟩
      · intro m hm
        obtain ⟨q, hq', rfl⟩ := List.mem_map.1 hm
        refine quiet_join (by decide) (by decide) (hq q (by simp [hq'])) (quiet_spaces ?_ ind)
        unfold Quiet; decide
      · obtain ⟨y, h1, h2⟩ := strip_last (List.replicate ind ' ' ++ ['*', '*'] ++ ' ' :: PyStr.strip z)
        refine ⟨y, h1, ?_⟩
        rcases h2 with rfl | ⟨w, rfl, hw⟩
        · exact ⟨quiet_nil, by simp⟩
        · refine ⟨quiet_post (quiet_infix hw ?_), by simp⟩
          refine quiet_join (by decide) (by decide) (hq z (by simp)) (quiet_spaces ?_ ind)
          unfold Quiet; decide

/-! ### statements and blocks -/

theorem starts_of_tidy {w : Str} (h : Tidy w) : Starts w := by
  cases w with
  | nil => exact absurd rfl h.1.1
  | cons c t => exact ⟨c, t, rfl, h.2 c (by simp)⟩

theorem tells_stmt {text : Ver → Nat → Nat → Str} {ws : List Juniper.Tok} (h : NeatStmt text ws) :
    Tells [plainLine (stmtText text ws)] (tokItem (stmtItem text ws)) :=
  tells_line (stmt_says h).1 (by decide) (stmt_says h).2

theorem tells_open {a : Str} {ts : List Spec.VersaText.Tok} (h1 : Starts a) (h : Says a ts) :
    Tells [plainLine (a ++ [' ', '{'])] (ts ++ [.opn]) := by
  have e : a ++ [' ', '{'] = (a ++ [' ']) ++ ['{'] := by simp
  have := says_open h
  rw [e] at this ⊢
  exact tells_line (by rw [← e]; exact starts_app h1 _) (by decide) this

theorem tells_close : Tells [plainLine ['}']] [.cls] := tells_line (s := []) ⟨_, _, rfl, by decide⟩ (by decide) says_close

theorem tokItems_one (i : Item) : tokItems [i] = tokItem i := by simp [tokItems]

theorem tells_flat {α : Type} {f : α → List Str} {g : α → List Item} : ∀ {l : List α},
    (∀ x ∈ l, Tells ((f x).map plainLine) (tokItems (g x))) → Tells ((l.flatMap f).map plainLine) (tokItems (l.flatMap g))
  | [], _ => tells_nil
  | x :: l, h => by
    rw [List.flatMap_cons, List.flatMap_cons, List.map_append, tokItems_append]
    exact tells_append (h x (by simp)) (tells_flat fun y hy => h y (by simp [hy]))

theorem tells_each {α : Type} {f : α → List Str} {g : α → Item} {l : List α}
    (h : ∀ x ∈ l, Tells ((f x).map plainLine) (tokItem (g x))) : Tells ((l.flatMap f).map plainLine) (tokItems (l.map g)) := by
  have := tells_flat (f := f) (g := fun x => [g x]) (l := l) fun x hx => by
    have e : tokItems [g x] = tokItem (g x) := by simp [tokItems]
    rw [e]; exact h x hx
  rwa [← List.map_eq_flatMap] at this

theorem tells_section {hd : Str} {ws : List Str} {ls : List Str} {is : List Item} (h1 : Starts hd) (h : Says hd (ws.map .word))
    (hl : Tells (ls.map plainLine) (tokItems is)) :
    Tells (((hd ++ [' ', '{']) :: (ls ++ [['}']])).map plainLine) (tokItem (.block ws is)) := by
  have := tells_cons (tells_open h1 h) (ls := ls ++ [['}']]) (by rw [List.map_append]; exact tells_append hl tells_close)
  rw [tokItem]
  simpa using this

theorem tells_block_lines {text : Ver → Nat → Nat → Str} (x : TermText) (hd : String) {ls : List (List Juniper.Tok)}
    (h : ∀ ws ∈ ls, NeatStmt text ws) :
    Tells ((blockLines text x hd ls).map plainLine) (tokItems (ls.map (stmtItem text))) := by
  refine tells_each fun ws hw => ?_
  rw [List.map_append]
  exact tells_append (s := []) (tells_addressComment _ _ _) (tells_stmt (h ws hw))

theorem tells_cond {text : Ver → Nat → Nat → Str} (x : TermText) {c : Cond} (h : NeatCond text c) :
    Tells ((condLines text x c).map plainLine) (tokItem (condItem text c)) := by
  cases c with
  | leaf ws => exact tells_stmt h
  | block hd ls => exact tells_section (starts_of_tidy h.1) (says_word h.1.1) (tells_block_lines x hd h.2)

theorem says_then {s : Str} {ts : List Spec.VersaText.Tok} (h : Says s ts) : Says ("then ".toList ++ s) (.word "then".toList :: ts) :=
  says_sp (a := "then".toList) (says_word (by decide +kernel)) h

theorem tells_acts {text : Ver → Nat → Nat → Str} {acts : Option (Bool × List (List Juniper.Tok))}
    (h : ∀ b l, acts = some (b, l) → ∀ ws ∈ l, NeatStmt text ws) :
    Tells ((actLines text acts).map plainLine) (tokItems (actItems text acts)) := by
  match acts, h with
  | none, _ => exact tells_nil
  | some (false, ls), h =>
    have e : actLines text (some (false, ls)) = ls.flatMap fun ws => ["then ".toList ++ stmtText text ws] := by
      simp [actLines, List.map_eq_flatMap]
    rw [e]
    refine tells_each fun ws hw => ?_
    have hs := stmt_says (h _ _ rfl ws hw)
    have e2 : "then ".toList ++ stmtText text ws = ("then ".toList ++ spaceJoin (ws.map (tokText text))) ++ [';'] := by
      simp [stmtText]
    have h2 := says_then hs.2
    rw [e2] at h2
    show Tells [plainLine ("then ".toList ++ stmtText text ws)] _
    rw [e2]
    exact tells_line ⟨'t', _, rfl, by decide⟩ (by decide) h2
  | some (true, ls), h =>
    have e : actItems text (some (true, ls)) = [.block ["then".toList] (ls.map (stmtItem text))] := rfl
    rw [e, tokItems, tokItems, List.append_nil]
    have hl : Tells ((ls.map (stmtText text)).map plainLine) (tokItems (ls.map (stmtItem text))) := by
      have := tells_each (f := fun ws => [stmtText text ws]) (g := stmtItem text) (l := ls) fun ws hw => tells_stmt (h _ _ rfl ws hw)
      rwa [← List.map_eq_flatMap] at this
    exact tells_section (hd := "then".toList) (ws := ["then".toList]) ⟨'t', _, rfl, by decide⟩ (says_word (by decide +kernel)) hl

theorem tells_body {text : Ver → Nat → Nat → Str} (x : TermText) {b : Body} (h : NeatBody text x.filterName b) :
    Tells ((bodyLines text x b).map plainLine) (tokItems (bodyItems text x.filterName b)) := by
  match b, h with
  | .filter, h =>
    have e : tokItems (bodyItems text x.filterName .filter) = [.word "filter".toList, .word x.filterName] ++ [.semi] := rfl
    rw [e]
    exact tells_line ⟨'f', _, rfl, by decide⟩ (by decide)
      (says_semi (says_sp (a := "filter".toList) (s := [_]) (says_word (by decide +kernel)) (says_word h.1)))
  | .normal none acts, h => exact tells_acts h.2
  | .normal (some cs) acts, h =>
    have e : bodyLines text x (.normal (some cs) acts) =
        (("from".toList ++ [' ', '{']) :: (cs.flatMap (condLines text x) ++ [['}']])) ++ actLines text acts := by
      simp [bodyLines]
    rw [e, List.map_append, bodyItems, tokItems]
    exact tells_append (tells_section (ws := ["from".toList]) ⟨'f', _, rfl, by decide⟩ (says_word (by decide +kernel))
      (tells_each fun c hc => tells_cond x (h.1 _ rfl c hc))) (tells_acts h.2)

theorem says_two {a b : Str} (ha : Plain a) (hb : Plain b) : Says (a ++ ' ' :: b) [.word a, .word b] :=
  says_sp (s := [_]) (says_word ha) (says_word hb)

theorem tells_term {text : Ver → Nat → Nat → Str} {x : TermText} (h : NeatTerm text x) :
    Tells (termLines text x) (tokItems (termItems text x)) ∧ termLines text x ≠ [] := by
  obtain ⟨hc, ho, ina, name, body, he, hn, hb⟩ := h
  unfold termLines termItems
  rw [he]
  refine ⟨?_, fun e => nomatch (List.append_eq_nil_iff.1 e).2⟩
  dsimp only
  rw [tokItems_one, tokItem]
  refine tells_append (s := []) (tells_termComment hc ho) ?_
  have hl := tells_append (tells_body x hb) tells_close
  cases ina with
  | false =>
    have e1 : PyStr.strip (([] ++ " term ".toList ++ name ++ " {".toList : Str)) = "term ".toList ++ name ++ [' ', '{'] := by
      have := PyStr.strip_around (a := [' ']) (s := "term ".toList ++ name ++ [' ', '{']) (b := [])
        (by intro c hc; rw [List.mem_singleton.1 hc]; decide) (by intro c hc; cases hc)
        (by intro y hy; cases hy; decide) (by intro y hy; rw [List.getLast?_append] at hy; cases hy; decide)
      rw [List.append_nil] at this
      exact this
    have h1 := says_open (says_two (a := "term".toList) (by decide +kernel) hn.1)
    have := tells_append (tells_strip e1 h1) hl
    rw [List.map_cons, List.map_append]
    exact this
  | true =>
    have h1 := says_sp (a := "inactive:".toList) (s := [_]) (says_word (by decide +kernel)) (says_two (a := "term".toList) (by decide +kernel) hn.1)
    have h2 := tells_open (a := "inactive:".toList ++ ' ' :: ("term".toList ++ ' ' :: name)) ⟨'i', _, rfl, by decide⟩ h1
    have h2 : Tells [plainLine ("inactive:".toList ++ " term ".toList ++ name ++ " {".toList)] _ := h2
    have := tells_append h2 hl
    rw [List.map_cons, List.map_append]
    exact this

/-! ### the whole text -/

theorem broken_joinNl : ∀ {ls : List Str}, ls ≠ [] → '\n' :: Wrap.joinNl ls = broken ls
  | [], h => absurd rfl h
  | [a], _ => by simp [Wrap.joinNl, broken]
  | a :: b :: l, _ => by
    have ih := broken_joinNl (ls := b :: l) (by simp)
    rw [Wrap.joinNl, ih]
    simp [broken]

theorem given_ne {ls : List (Bool × Str)} {out : List Str} (h : Given ls out) (hn : ls ≠ []) : out ≠ [] := by
  cases h with
  | nil => exact absurd rfl hn
  | verb => simp
  | line => simp

theorem lines_termStr {text : Ver → Nat → Nat → Str} {x : TermText} {s : Str} (h : NeatTerm text x) (hs : termStr text x = .ok s) :
    Lines [s] (tokItems (termItems text x)) := by
  obtain ⟨ls, h1, h2⟩ := bind_ok hs
  cases h2
  have hg := build_given h1
  have := (tells_term h).1 _ hg
  intro r hr
  have e : broken [Wrap.joinNl ls] = broken ls := by
    rw [← broken_joinNl (given_ne hg (tells_term h).2)]
    simp [broken]
  rw [e, this r hr]

theorem tells_verbs {text : Ver → Nat → Nat → Str} : ∀ {xs : List TermText} {ts : List Str}, (∀ x ∈ xs, NeatTerm text x) →
    Spec.All₂ (fun a b => termStr text a = .ok b) xs ts →
    Tells ((ts.filter fun t => !t.isEmpty).map fun t => (true, t)) (tokItems (xs.flatMap (termItems text)))
  | _, _, _, .nil => tells_nil
  | x :: xs, t :: ts, h, .cons h1 h2 => by
    have ih := tells_verbs (fun y hy => h y (by simp [hy])) h2
    have hl := lines_termStr (h x (by simp)) h1
    rw [List.flatMap_cons, tokItems_append]
    cases t with
    | nil =>
      have hz : tokItems (termItems text x) = [] := by
        have := hl [] (.inl rfl)
        have e : lex (.out []) (broken [[]] ++ []) = [] := by decide +kernel
        have e' : lex (.out []) [] = [] := by decide +kernel
        rw [e, e', List.append_nil] at this
        exact this.symm
      rw [hz]
      exact ih
    | cons c t =>
      have : Tells [(true, c :: t)] (tokItems (termItems text x)) := by
        intro out ho
        generalize e : [(true, c :: t)] = ls at ho
        cases ho with
        | nil => cases e
        | line => cases e
        | verb hh => cases e; cases hh; exact hl
      exact tells_append this ih

theorem tells_filter {text : Ver → Nat → Nat → Str} {f : FilterText} {ls : List (Bool × Str)} (h : NeatFilter text f)
    (hs : filterLines text f = .ok ls) : Tells ls (tokItem (filterItem text f)) := by
  obtain ⟨ts, h1, h2⟩ := bind_ok hs
  cases h2
  obtain ⟨hf, hn, hc, ht⟩ := h
  have t0 : Tells [plainLine "firewall {".toList] [.word "firewall".toList, .opn] :=
    tells_open (a := "firewall".toList) ⟨'f', _, rfl, by decide⟩ (says_word (by decide +kernel))
  have t1 : Tells [plainLine ("family ".toList ++ f.family ++ " {".toList)] ([.word "family".toList, .word f.family] ++ [.opn]) :=
    tells_open ⟨'f', _, rfl, by decide⟩ (says_two (a := "family".toList) (by decide +kernel) hf.1)
  have t2 := tells_headerComment hc
  have t3 : Tells [plainLine ("replace: filter ".toList ++ f.name ++ " {".toList)]
      ([.word "replace:".toList, .word "filter".toList, .word f.name] ++ [.opn]) :=
    tells_open ⟨'r', _, rfl, by decide⟩ (says_sp (a := "replace:".toList) (s := [_]) (says_word (by decide +kernel))
      (says_two (a := "filter".toList) (by decide +kernel) hn.1))
  have t4 : Tells ((if f.interfaceSpecific then ["interface-specific;".toList] else []).map plainLine)
      (tokItems (if f.interfaceSpecific then [.stmt ["interface-specific".toList]] else [])) := by
    split
    · exact tells_line (s := "interface-specific".toList) ⟨'i', _, rfl, by decide⟩ (by decide) (says_semi (says_word (by decide +kernel)))
    · exact tells_nil
  have t5 : Tells ((if f.enhanced then ["enhanced-mode;".toList] else []).map plainLine)
      (tokItems (if f.enhanced then [.stmt ["enhanced-mode".toList]] else [])) := by
    split
    · exact tells_line (s := "enhanced-mode".toList) ⟨'e', _, rfl, by decide⟩ (by decide) (says_semi (says_word (by decide +kernel)))
    · exact tells_nil
  have t6 := tells_verbs ht (listM_ok h1)
  have t7 := tells_append tells_close (tells_append tells_close tells_close)
  have h := tells_append t0 (tells_append t1 (tells_append t2 (tells_append t3 (tells_append t4 (tells_append t5 (tells_append t6 t7))))))
  simp only [filterItem, tokItem, tokItems_one, tokItems_append, List.map_cons, List.map_nil, List.map_append, List.append_assoc,
    List.cons_append, List.nil_append] at h ⊢
  exact h

theorem tells_filters {text : Ver → Nat → Nat → Str} : ∀ {fs : List FilterText} {ls : List (Bool × Str)}, (∀ f ∈ fs, NeatFilter text f) →
    concatM (filterLines text) fs = .ok ls → Tells ls (tokItems (fs.map (filterItem text)))
  | [], ls, _, h => by cases h; exact tells_nil
  | f :: fs, ls, hn, h => by
    unfold concatM at h
    obtain ⟨a, h1, h⟩ := bind_ok h
    obtain ⟨b, h2, h⟩ := bind_ok h
    cases h
    exact tells_append (tells_filter (hn f (by simp)) h1) (tells_filters (fun g hg => hn g (by simp [hg])) h2)

/-- C184: whatever filters, terms, conditions, addresses, names, comments and owners are: if the words are neat and the
comments do not end themselves, then a device that reads the printed text finds, filter by filter, every statement of every
term, in the order and in the blocks of the terms, and nothing else; no comment hides a statement and no statement is cut.

Partial: terms with verbatim lines are not covered. -/
theorem C184_read_partial {text : Ver → Nat → Nat → Str} {fs : List FilterText} {s : Str} (h : ∀ f ∈ fs, NeatFilter text f)
    (hs : fileText text fs = .ok s) : reads s = some (fs.map (filterItem text)) := by
  obtain ⟨ls, h1, hs⟩ := bind_ok hs
  obtain ⟨out, h2, hs⟩ := bind_ok hs
  cases hs
  have ht := tells_filters h h1 _ (build_given h2)
  unfold reads
  have e : lex (.out []) (Wrap.joinNl out ++ ['\n']) = tokItems (fs.map (filterItem text)) := by
    have := ht ['\n'] (delim_nl _)
    have e0 : lex (.out []) ['\n'] = [] := by decide +kernel
    rw [e0, List.append_nil] at this
    rw [← this]
    cases out with
    | nil => rfl
    | cons o out => rw [← broken_joinNl (by simp), List.cons_append, lex_nl]
  rw [e, parse_all]

/-- A filter with a term that is inactive, with comments, addresses, ports and two actions. -/
def exFilterText : FilterText :=
  { family := "inet".toList, name := "edge".toList, interfaceSpecific := true, enhanced := false
    comments := ["first line\nsecond { line".toList]
    terms := [
      { out := .term true "t1".toList (.normal
          (some [.block "source-address" [[.pfx .v4 167772160 8], [.pfx .v4 167837696 16, .w "except"]],
            .leaf [.w "protocol", .w "[ tcp udp ]"], .leaf [.w "destination-port", .range 1 65535]])
          (some (true, [[.w "log"], [.w "count", .w "c1"]])))
        owner := some "a@b".toList, comments := ["x ; y".toList]
        note := fun _ _ _ => "a comment".toList },
      { out := .term false "t2".toList (.normal none (some (false, [[.w "discard"]]))) }] }

def exNetText (_ : Ver) (_ p : Nat) : Str := "10.0.0.0/".toList ++ numText p

theorem neatText_of {s : Str} (h : s.head? ≠ some '"' ∧ ∀ w ∈ wordsIn s, Plain w ∧ ∀ c ∈ w, PyStr.isSpace c = false) : Neat s := .inr h

theorem exNetText_tidy : Tidy (exNetText .v4 167772160 8) ∧ Tidy (exNetText .v4 167837696 16) := by unfold Tidy; decide +kernel

/-- The filter is neat and its text exists. -/
example : NeatFilter exNetText exFilterText ∧ ∃ s, fileText exNetText [exFilterText] = .ok s := by
  refine ⟨⟨by unfold Tidy; decide +kernel, by unfold Tidy; decide +kernel, by unfold Quiet; decide +kernel, ?_⟩, ?_⟩
  · refine List.forall_mem_cons.2 ⟨?_, List.forall_mem_cons.2 ⟨?_, nofun⟩⟩
    · refine ⟨by unfold Quiet; decide +kernel, by intro o ho; cases ho; unfold Quiet; decide +kernel, _, _, _, rfl,
        by unfold Tidy; decide +kernel, ?_, ?_⟩
      · intro l hl
        cases hl
        refine List.forall_mem_cons.2 ⟨⟨by unfold Tidy; decide +kernel, ?_⟩, List.forall_mem_cons.2 ⟨?_, List.forall_mem_cons.2 ⟨?_, nofun⟩⟩⟩
        · exact List.forall_mem_cons.2 ⟨⟨by simp, List.forall_mem_cons.2 ⟨exNetText_tidy.1, nofun⟩⟩, List.forall_mem_cons.2
            ⟨⟨by simp, List.forall_mem_cons.2 ⟨exNetText_tidy.2, List.forall_mem_cons.2 ⟨neatText_of (by decide +kernel), nofun⟩⟩⟩, nofun⟩⟩
        · exact ⟨by simp, List.forall_mem_cons.2 ⟨neatText_of (by decide +kernel), List.forall_mem_cons.2 ⟨neatText_of (by decide +kernel), nofun⟩⟩⟩
        · exact ⟨by simp, List.forall_mem_cons.2 ⟨neatText_of (by decide +kernel), List.forall_mem_cons.2 ⟨trivial, nofun⟩⟩⟩
      · intro b l hl
        cases hl
        exact List.forall_mem_cons.2 ⟨⟨by simp, List.forall_mem_cons.2 ⟨neatText_of (by decide +kernel), nofun⟩⟩, List.forall_mem_cons.2
          ⟨⟨by simp, List.forall_mem_cons.2 ⟨neatText_of (by decide +kernel), List.forall_mem_cons.2 ⟨neatText_of (by decide +kernel), nofun⟩⟩⟩, nofun⟩⟩
    · refine ⟨nofun, nofun, _, _, _, rfl, by unfold Tidy; decide +kernel, nofun, ?_⟩
      intro b l hl
      cases hl
      exact List.forall_mem_cons.2 ⟨⟨by simp, List.forall_mem_cons.2 ⟨neatText_of (by decide +kernel), nofun⟩⟩, nofun⟩
  · have : (fileText exNetText [exFilterText]).isOk = true := by decide +kernel
    revert this
    cases fileText exNetText [exFilterText] with
    | ok s => exact fun _ => ⟨s, rfl⟩
    | error e => intro h; cases h

/-- A filter whose comment ends the comment that it is in. -/
def exBroken : FilterText :=
  { family := "inet".toList, name := "edge".toList, interfaceSpecific := false, enhanced := false, comments := ["a */ b; /* c".toList]
    terms := [{ out := .term false "t".toList (.normal none (some (false, [[.w "discard"]]))) }] }

/-- How many items the family block has. -/
def exCount : Option (List Item) → Nat
  | some [.block _ [.block _ is]] => is.length
  | _ => 0

/-- C184, what does not hold: a comment of a policy with the end of a comment in it is printed as it is, and the rest of it
is read as configuration. -/
theorem C184_refuted : ∃ s, fileText exNetText [exBroken] = .ok s ∧ reads s ≠ some [filterItem exNetText exBroken] := by
  have h : ((fileText exNetText [exBroken]).toOption.map fun s => exCount (reads s)) = some 2 := by decide +kernel
  revert h
  cases fileText exNetText [exBroken] with
  | error e => intro h; cases h
  | ok s =>
    intro h
    refine ⟨s, rfl, fun e => ?_⟩
    change some (exCount (reads s)) = some 2 at h
    rw [e] at h
    exact absurd h (by decide +kernel)

end Verif.Props
