import Verif.Spec.SrxText
import Verif.Lemmas.JuniperText
import Verif.Props.JuniperText

/-!
C185: the text of an SRX configuration is read as its address books, policies and applications.
-/

namespace Verif.Props
open Verif Verif.Srx Verif.Spec.SrxRead Verif.Spec.VersaText Verif.Lemmas.VersaTreeL Verif.Lemmas.JuniperTextL
open Verif.Versa (pad joined)

/-! ### lines -/

theorem says_joined : ∀ {ws : List Str}, ws ≠ [] → (∀ w ∈ ws, Plain w) → Says (joined ws) (ws.map .word)
  | [], h, _ => absurd rfl h
  | [w], _, h => says_word (h w (by simp))
  | w :: v :: l, _, h => by
    have ih := says_joined (ws := v :: l) (by simp) fun x hx => h x (List.mem_cons_of_mem _ hx)
    rw [joined]
    exact says_sp (s := [.word w]) (says_word (h w (by simp))) ih

theorem words_says {ws : List String} (h0 : ws ≠ []) (h : ∀ w ∈ ws, Plain w.toList) :
    Says (joined (ws.map String.toList)) ((wordsOf ws).map .word) := by
  refine says_joined (by simpa using h0) ?_
  intro w hw
  obtain ⟨x, hx, rfl⟩ := List.mem_map.1 hw
  exact h x hx

theorem lines_opens {ws : List String} (k : Nat) (h0 : ws ≠ []) (h : ∀ w ∈ ws, Plain w.toList) :
    Lines [pad k ++ lineText (.opens ws)] ((wordsOf ws).map .word ++ [.opn]) := lines_one k (says_open (words_says h0 h))

theorem lines_stmt {ws : List String} (k : Nat) (h0 : ws ≠ []) (h : ∀ w ∈ ws, Plain w.toList) :
    Lines [pad k ++ lineText (.stmt ws)] (tokItem (.stmt (wordsOf ws))) := by
  rw [tokItem]
  exact lines_one k (says_semi (words_says h0 h))

theorem lines_closes (k : Nat) : Lines [pad k ++ lineText .closes] [.cls] := lines_one k says_close

theorem lines_cons {l : Str} {ls : List Str} {s t : List Tok} (h1 : Lines [l] s) (h2 : Lines ls t) : Lines (l :: ls) (s ++ t) :=
  lines_append (a := [l]) h1 h2

theorem shows_rest {ls : List Line} {is : List Item} (h : Shows ls is) : ∀ (k : Nat) (rest : List Line) (ts : List Tok),
    (∀ k, Lines (codeLines k rest) ts) → Lines (codeLines k (ls ++ rest)) (tokItems is ++ ts) := by
  induction h with
  | nil =>
    intro k rest ts hr
    exact hr k
  | stmt h0 hw _ ih =>
    intro k rest ts hr
    rw [List.cons_append, codeLines, tokItems, List.append_assoc]
    exact lines_cons (lines_stmt k h0 hw) (ih k rest ts hr)
  | block h0 hw _ _ ih1 ih2 =>
    rename_i ws body rest' is js _ _
    intro k rest ts hr
    have e : (Line.opens ws :: (body ++ .closes :: rest')) ++ rest = .opens ws :: (body ++ .closes :: (rest' ++ rest)) := by simp
    rw [e, codeLines, tokItems, tokItem]
    have h2 : ∀ k, Lines (codeLines k (.closes :: (rest' ++ rest))) (.cls :: (tokItems js ++ ts)) := by
      intro k
      rw [codeLines]
      exact lines_cons (s := [.cls]) (lines_closes _) (ih2 _ rest ts hr)
    have := lines_cons (lines_opens k h0 hw) (ih1 (k + 1) _ _ h2)
    simpa using this

theorem shows_lines {ls : List Line} {is : List Item} (h : Shows ls is) (k : Nat) : Lines (codeLines k ls) (tokItems is) := by
  have := shows_rest h k [] [] fun k => by rw [codeLines]; exact lines_nil
  simpa using this

/-! ### blocks -/

theorem shows_append {l m : List Line} {is js : List Item} (h : Shows l is) (hm : Shows m js) : Shows (l ++ m) (is ++ js) := by
  induction h with
  | nil => exact hm
  | stmt h0 hw _ ih => exact .stmt h0 hw ih
  | block h0 hw hb _ _ ih =>
    rw [List.cons_append, List.append_assoc, List.cons_append]
    exact .block h0 hw hb ih

theorem shows_one {ws : List String} (h0 : ws ≠ []) (h : ∀ w ∈ ws, Plain w.toList) : Shows [.stmt ws] [.stmt (wordsOf ws)] :=
  .stmt h0 h .nil

theorem shows_wrap {ws : List String} {body : List Line} {is : List Item} (h0 : ws ≠ []) (hw : ∀ w ∈ ws, Plain w.toList)
    (h : Shows body is) : Shows (.opens ws :: body ++ [.closes]) [.block (wordsOf ws) is] := .block h0 hw h .nil

theorem shows_flatMap {α : Type} {l : List α} {f : α → List Line} {g : α → Item} (h : ∀ a ∈ l, Shows (f a) [g a]) :
    Shows (l.flatMap f) (l.map g) := by
  induction l with
  | nil => exact .nil
  | cons a l ih =>
    rw [List.flatMap_cons, List.map_cons]
    exact shows_append (h a (by simp)) (ih fun a ha => h a (List.mem_cons_of_mem _ ha))

theorem shows_stmts {α : Type} {l : List α} {f : α → List String} (h0 : ∀ a, f a ≠ []) (h : ∀ a ∈ l, ∀ w ∈ f a, Plain w.toList) :
    Shows (l.map fun a => .stmt (f a)) (l.map fun a => .stmt (wordsOf (f a))) := by
  induction l with
  | nil => exact .nil
  | cons a l ih => exact .stmt (h0 a) (h a (by simp)) (ih fun a ha => h a (List.mem_cons_of_mem _ ha))

theorem plain2 {a b : String} (ha : Plain a.toList) (hb : Plain b.toList) : ∀ w ∈ [a, b], Plain w.toList := by
  intro w hw
  simp only [List.mem_cons, List.not_mem_nil, or_false] at hw
  rcases hw with rfl | rfl
  · exact ha
  · exact hb

theorem plain1 {a : String} (ha : Plain a.toList) : ∀ w ∈ [a], Plain w.toList := by
  intro w hw
  rw [List.mem_singleton.1 hw]
  exact ha

theorem plain_bracket {name : String} {l : List String} (hn : Plain name.toList) (h : ∀ w ∈ l, Plain w.toList) :
    ∀ w ∈ [name, "["] ++ l ++ ["]"], Plain w.toList := by
  intro w hw
  rcases List.mem_append.1 hw with hw | hw
  · rcases List.mem_append.1 hw with hw | hw
    · exact plain2 hn (by decide +kernel) w hw
    · exact h w hw
  · exact plain1 (by decide +kernel) w hw

theorem shows_list {name : String} {l : List String} (hn : Plain name.toList) (h : ∀ w ∈ l, Plain w.toList) :
    Shows (listLine name l) (listItem name l) := by
  unfold listLine listItem
  cases l with
  | nil => exact .nil
  | cons a l =>
    rw [if_neg (by simp), if_neg (by simp)]
    exact shows_one (by simp) (plain_bracket hn h)

theorem shows_address {name : String} {o : Option (List String)} {l : List Line} {is : List Item} (hn : Plain name.toList)
    (h : ∀ l, o = some l → ∀ w ∈ l, Plain w.toList) (hl : Shows l is) :
    Shows (addressLine name o :: l) (sideAddresses name o :: is) := by
  cases o with
  | none => exact .stmt (by simp) (plain2 hn (by decide +kernel)) hl
  | some m => exact .stmt (by simp) (plain_bracket hn (h m rfl)) hl

/-! ### policies -/

theorem shows_action {t : Then} (ha : Plain t.action.toList)
    (hv : ∀ v, t.vpn = some v → Plain v.1.toList ∧ (v.2 = "" ∨ Plain v.2.toList)) :
    Shows (match t.vpn with
      | some v => [.opens [t.action], .opens ["tunnel"], .stmt ["ipsec-vpn", v.1]] ++
          (if v.2 = "" then [] else [.stmt ["pair-policy", v.2]]) ++ [.closes, .closes]
      | none => [.stmt [t.action]]) [actionItem t] := by
  unfold actionItem
  cases e : t.vpn with
  | none => exact shows_one (by simp) (plain1 ha)
  | some v =>
    obtain ⟨h1, h2⟩ := hv v e
    have hp : Shows (if v.2 = "" then [] else [.stmt ["pair-policy", v.2]])
        (if v.2 = "" then [] else [.stmt (wordsOf ["pair-policy", v.2])]) := by
      split
      · exact .nil
      next hne => exact shows_one (by simp) (plain2 (by decide +kernel) (h2.resolve_left hne))
    have := shows_wrap (ws := [t.action]) (by simp) (plain1 ha) (shows_wrap (ws := ["tunnel"]) (by simp) (plain1 (by decide +kernel))
      (shows_append (shows_one (ws := ["ipsec-vpn", v.1]) (by simp) (plain2 (by decide +kernel) h1)) hp))
    simpa using this

theorem shows_then {t : Then} (ha : Plain t.action.toList)
    (hv : ∀ v, t.vpn = some v → Plain v.1.toList ∧ (v.2 = "" ∨ Plain v.2.toList))
    (hd : ∀ s, t.dscpSet = some s → Plain s.toList) (hl : ∀ s ∈ t.logs, Plain s.toList) :
    ∃ l, Shows l [thenItem t] ∧ thenLines t = l ++ [.closes] := by
  have h2 : Shows ((t.dscpSet.map fun s => [Line.stmt ["dscp", s]]).getD [])
      (match t.dscpSet with | none => [] | some s => [.stmt (wordsOf ["dscp", s])]) := by
    cases e : t.dscpSet with
    | none => exact .nil
    | some s => exact shows_one (by simp) (plain2 (by decide +kernel) (hd s e))
  have h3 : Shows (if t.logs.isEmpty then [] else .opens ["log"] :: (t.logs.map fun s => .stmt [s]) ++ [.closes])
      (if t.logs = [] then [] else [.block (wordsOf ["log"]) (t.logs.map fun s => .stmt (wordsOf [s]))]) := by
    by_cases e : t.logs = []
    · rw [if_pos e, if_pos (by rw [e]; rfl)]
      exact .nil
    · rw [if_neg e, if_neg (by simpa using e)]
      exact shows_wrap (by simp) (plain1 (by decide +kernel)) (shows_stmts (f := fun s => [s]) (by simp) fun s hs => plain1 (hl s hs))
  have h4 : Shows (if t.count then [.stmt ["count"]] else []) (if t.count then [.stmt (wordsOf ["count"])] else []) := by
    split
    · exact shows_one (by simp) (plain1 (by decide +kernel))
    · exact .nil
  have := shows_wrap (ws := ["then"]) (by simp) (plain1 (by decide +kernel))
    (shows_append (shows_action ha hv) (shows_append h2 (shows_append h3 h4)))
  refine ⟨_, this, ?_⟩
  unfold thenLines
  cases t.vpn <;> simp

theorem shows_policy {q : SPolicy} (h : PlainPolicy q) : Shows (policyLines q) [policyItem q] := by
  obtain ⟨t, ht, ha, hv, hd, hl⟩ := h.act
  obtain ⟨l, hl, e⟩ := shows_then ha hv hd hl
  have happ : Shows [.stmt ["application", (q.app.map fun a => String.ofList (appName a)).getD "any"]]
      [.stmt ["application".toList, appWord q.app]] := by
    cases e : q.app with
    | none => exact shows_one (ws := ["application", "any"]) (by simp) (plain2 (by decide +kernel) (by decide +kernel))
    | some a =>
      have hp := h.app a e
      have := shows_one (ws := ["application", String.ofList (appName a)]) (by simp)
        (plain2 (by decide +kernel) (by rw [String.toList_ofList]; exact hp))
      simpa [wordsOf, appName, appWord] using this
  have hlist : ∀ l ∈ [q.dscp, q.dscpExcept, q.fromZones, q.toZones], ∀ w ∈ l, Plain w.toList := h.lists
  have hm := shows_address (name := "source-address") (by decide +kernel) h.src
    (shows_address (name := "destination-address") (by decide +kernel) h.dst (shows_append happ
      (shows_append (shows_list (name := "dscp") (by decide +kernel) (hlist q.dscp (by simp)))
      (shows_append (shows_list (name := "dscp-except") (by decide +kernel) (hlist q.dscpExcept (by simp)))
      (shows_append (shows_list (name := "from-zone") (by decide +kernel) (hlist q.fromZones (by simp)))
        (shows_list (name := "to-zone") (by decide +kernel) (hlist q.toZones (by simp))))))))
  have := shows_wrap (ws := ["policy", String.ofList q.name]) (by simp)
    (plain2 (by decide +kernel) (by rw [String.toList_ofList]; exact h.name))
    (shows_append (shows_wrap (ws := ["match"]) (by simp) (plain1 (by decide +kernel)) hm) hl)
  unfold policyLines policyItem
  rw [ht, List.flatMap_cons, List.flatMap_nil, List.append_nil, e]
  simpa [wordsOf] using this

/-! ### comments -/

theorem lex_mids (k : Nat) : ∀ {ls : List Str}, (∀ l ∈ ls, Quiet l) → ∀ r,
    lex .comment (broken (ls.map fun l => pad k ++ l) ++ '\n' :: r) = lex .comment ('\n' :: r)
  | [], _, r => rfl
  | l :: ls, h, r => by
    have ih := lex_mids k (ls := ls) (fun l hl => h l (List.mem_cons_of_mem _ hl)) r
    have e : broken ((l :: ls).map fun l => pad k ++ l) ++ '\n' :: r =
        ('\n' :: (pad k ++ l)) ++ (broken (ls.map fun l => pad k ++ l) ++ '\n' :: r) := by simp [broken]
    have hd : ∃ r', broken (ls.map fun l => pad k ++ l) ++ '\n' :: r = '\n' :: r' := by
      cases ls with
      | nil => exact ⟨_, rfl⟩
      | cons o out => exact ⟨_, rfl⟩
    obtain ⟨r', e'⟩ := hd
    have hq : Quiet ('\n' :: (pad k ++ l)) := quiet_pre (by decide) (quiet_spaces (h l (by simp)) _)
    rw [e, e', lex_inside hq, ← e', ih]

theorem lines_note (k : Nat) {ls : List Str} (h : ∀ l ∈ ls, Quiet l) : Lines (noteLines k ls) [] := by
  intro r _
  have e : broken (noteLines k ls) ++ r = '\n' :: (pad k ++ '/' :: '*' ::
      (broken (ls.map fun l => pad k ++ l) ++ '\n' :: (pad k ++ '*' :: '/' :: r))) := by simp [broken, noteLines]
  rw [e, lex_nl, pad, lex_spaces, lex_comment_start, ← pad, lex_mids k h]
  have := lex_comment_in (s := '\n' :: (List.replicate (4 * k) ' ' ++ [])) (r := '*' :: '/' :: r)
    (quiet_pre (by decide) (quiet_spaces quiet_nil _)) (by
      rw [List.append_nil, List.getLast?_cons]
      cases h : 4 * k with
      | zero => simp
      | succ m => simp [List.getLast?_replicate])
  have e3 : '\n' :: (pad k ++ '*' :: '/' :: r) = ('\n' :: (List.replicate (4 * k) ' ' ++ [])) ++ '*' :: '/' :: r := by simp [pad]
  rw [e3, this, lex_comment_end]
  rfl

theorem lines_flatMap {α : Type} {l : List α} {f : α → List Str} {g : α → Item} (h : ∀ a ∈ l, Lines (f a) (tokItem (g a))) :
    Lines (l.flatMap f) (tokItems (l.map g)) := by
  induction l with
  | nil => exact lines_nil
  | cons a l ih =>
    rw [List.flatMap_cons, List.map_cons, tokItems]
    exact lines_append (h a (by simp)) (ih fun a ha => h a (List.mem_cons_of_mem _ ha))

theorem tokItems_single (i : Item) : tokItems [i] = tokItem i := by simp [tokItems]

theorem lines_policy {x : PolicyText} (h : PlainPolicy x.policy) (hc : ∀ c ∈ x.comments, Quiet c) (ho : ∀ o, x.owner = some o → Quiet o) :
    Lines (policyText x) (tokItem (policyItem x.policy)) := by
  unfold policyText
  rw [← tokItems_single, ← List.nil_append (tokItems _)]
  refine lines_append ?_ (shows_lines (shows_policy h) 3)
  have hq : ∀ c ∈ ownedComments x, Quiet c := by
    intro c hcm
    unfold ownedComments at hcm
    rcases List.mem_append.1 hcm with hcm | hcm
    · exact hc c hcm
    · split at hcm
      next d o e =>
        rw [List.mem_singleton.1 hcm]
        exact quiet_pre (by decide) (quiet_pre (by decide) (quiet_pre (by decide) (quiet_pre (by decide) (quiet_pre (by decide)
          (quiet_pre (by decide) (quiet_pre (by decide) (ho _ e)))))))
      · cases hcm
  have hw := wrap_quiet (n := 68) hq
  split
  · exact lines_nil
  next l ls e =>
    split
    · exact lines_nil
    · rw [e] at hw
      exact lines_note 3 hw

theorem lines_block {b : BlockText} (h : PlainBlock b) : Lines (blockText b) (tokItem (blockItem b)) := by
  unfold blockText blockItem
  have h1 : Lines (if b.verbose then noteLines 2 (Wrap.wrapWords 71 b.comments).2 else []) [] := by
    split
    · exact lines_note 2 (wrap_quiet h.comments)
    · exact lines_nil
  have h2 : Lines (codeLines 2 [.opens (if b.fromZone = "all" ∧ b.toZone = "all" then ["global"] else
      ["from-zone", b.fromZone, "to-zone", b.toZone])]) ((wordsOf (if b.fromZone = "all" ∧ b.toZone = "all" then ["global"] else
      ["from-zone", b.fromZone, "to-zone", b.toZone])).map .word ++ [.opn]) := by
    refine lines_opens 2 (by split <;> simp) ?_
    split
    · exact plain1 (by decide +kernel)
    · intro w hw
      rcases List.mem_append.1 (show w ∈ ["from-zone", b.fromZone] ++ ["to-zone", b.toZone] from hw) with hw | hw
      · exact plain2 (by decide +kernel) h.zones.1 w hw
      · exact plain2 (by decide +kernel) h.zones.2 w hw
  have h3 := shows_lines (shows_list (name := "apply-groups") (l := b.groups) (by decide +kernel)
    fun w hw => h.groups w (List.mem_append.2 (.inl hw))) 3
  have h4 := shows_lines (shows_list (name := "apply-groups-except") (l := b.groupsExcept) (by decide +kernel)
    fun w hw => h.groups w (List.mem_append.2 (.inr hw))) 3
  have h5 : Lines (b.policies.flatMap policyText) (tokItems (b.policies.map fun x => policyItem x.policy)) :=
    lines_flatMap fun x hx => lines_policy (h.policies x hx).1 (h.policies x hx).2.1 (h.policies x hx).2.2
  have h6 : Lines (codeLines 3 [.closes]) [.cls] := lines_closes 2
  have := lines_append h1 (lines_append h2 (lines_append h3 (lines_append h4 (lines_append h5 h6))))
  rw [tokItem, tokItems_append, tokItems_append]
  simpa using this

/-! ### address books -/

theorem shows_entries {text : Net → String} {b : Book} (h : PlainBook text b) : Shows (entryTextLines text b) (entryItems text b) := by
  unfold entryTextLines entryItems
  refine shows_append (shows_stmts (f := fun a : String × Net => ["address", a.1, text a.2]) (by simp) fun a ha w hw => ?_)
    (shows_flatMap fun s hs => ?_)
  · rcases List.mem_cons.1 hw with rfl | hw
    · decide +kernel
    · exact plain2 (h.addresses a ha).1 (h.addresses a ha).2 w hw
  · exact shows_wrap (by simp) (plain2 (by decide +kernel) (h.sets s hs).1)
      (shows_stmts (f := fun m => ["address", m]) (by simp) fun m hm => plain2 (by decide +kernel) ((h.sets s hs).2 m hm))

theorem lines_opens2 {a b : List String} (k : Nat) (ha0 : a ≠ []) (ha : ∀ w ∈ a, Plain w.toList) (hb0 : b ≠ [])
    (hb : ∀ w ∈ b, Plain w.toList) : Lines (codeLines k [.opens a, .opens b])
      ((wordsOf a).map .word ++ [.opn] ++ ((wordsOf b).map .word ++ [.opn])) :=
  lines_cons (lines_opens k ha0 ha) (lines_opens (k + 1) hb0 hb)

theorem lines_closes2 (k : Nat) : Lines (codeLines k [.closes, .closes]) [.cls, .cls] :=
  lines_cons (s := [.cls]) (lines_closes _) (lines_closes _)

theorem lines_book {text : Net → String} {b : Book} (h : PlainBook text b) : Lines (bookText text b) (tokItem (bookItem text b)) := by
  unfold bookText bookItem
  have h1 := shows_lines (shows_entries h) 4
  cases e : b.zone with
  | none =>
    have := lines_append (lines_opens2 (a := ["replace:", "address-book"]) (b := ["global"]) 1 (by simp)
      (plain2 (by decide +kernel) (by decide +kernel)) (by simp) (plain1 (by decide +kernel))) (lines_append h1 (lines_closes2 3))
    simpa [tokItem, tokItems] using this
  | some z =>
    have := lines_append (lines_opens2 (a := ["security-zone", z]) (b := ["replace:", "address-book"]) 2 (by simp)
      (plain2 (by decide +kernel) (h.zone z e)) (by simp) (plain2 (by decide +kernel) (by decide +kernel)))
      (lines_append h1 (lines_closes2 4))
    simpa [tokItem, tokItems] using this

theorem lines_books {text : Net → String} {l : List Book} (h : ∀ b ∈ l, PlainBook text b) :
    Lines (booksText text l) (tokItems (bookItems text l)) := by
  unfold booksText bookItems
  have h1 := lines_flatMap (f := bookText text) (g := bookItem text) fun b hb => lines_book (h b hb)
  by_cases e : ∃ b ∈ l, b.zone = none
  · rw [if_pos e, if_pos (by simpa [List.any_eq_true, Option.isNone_iff_eq_none] using e)]
    exact h1
  · rw [if_neg e, if_neg (by simpa [List.any_eq_true, Option.isNone_iff_eq_none] using e)]
    have := lines_append (lines_opens (ws := ["zones"]) 1 (by simp) (plain1 (by decide +kernel))) (lines_append h1 (lines_closes 1))
    rw [tokItems_single, tokItem]
    simpa [codeLines] using this

/-! ### applications -/

/-- A character that changes nothing at the end of a plain word. -/
def Soft (c : Char) : Prop := (c ≠ '"' ∧ c ≠ '{' ∧ c ≠ '}' ∧ c ≠ ';' ∧ ¬ Gap c) ∧ c ≠ '*'

instance (c : Char) : Decidable (Soft c) := inferInstanceAs (Decidable (_ ∧ _))

theorem plain_soft {a : Str} {c : Char} (ha : Plain a) (hc : Soft c) : Plain (a ++ [c]) := by
  refine ⟨by simp, ?_, ?_⟩
  · intro d hd
    rcases List.mem_append.1 hd with hd | hd
    · exact ha.2.1 d hd
    · rw [List.mem_singleton.1 hd]
      exact hc.1
  · intro hi
    rcases List.infix_concat_iff.1 hi with hs | hs
    · obtain ⟨t, ht⟩ := hs
      have := congrArg List.getLast? ht
      simp at this
      exact hc.2 this.symm
    · exact ha.2.2 hs

theorem plain_tail : ∀ {b a : Str}, Plain a → (∀ c ∈ b, Soft c) → Plain (a ++ b)
  | [], a, ha, _ => by simpa using ha
  | c :: b, a, ha, h => by
    have := plain_tail (b := b) (plain_soft ha (h c (by simp))) fun d hd => h d (List.mem_cons_of_mem _ hd)
    simpa using this

theorem num_soft (n : Nat) : Plain (toString n).toList ∧ ∀ c ∈ (toString n).toList, Soft c := by
  have hn := num_num n
  have hp : Plain (toString n).toList := (clean_num hn.1 hn.2).1
  refine ⟨hp, fun c hc => ⟨hp.2.1 c hc, ?_⟩⟩
  rintro rfl
  have : NumChar '*' := hn.2 _ hc
  unfold NumChar at this
  revert this
  decide

theorem appName_plain {n : Str} (h : Plain n) : Plain (appName n) := plain_tail h (by decide +kernel)

theorem partName_plain {n : Str} (h : Plain n) (i : Nat) : Plain (partName n i) := plain_tail (appName_plain h) (num_soft i).2

theorem portWord_plain (r : Policy.PortRange) : Plain (portWord r).toList := by
  unfold portWord
  split
  · exact (num_soft _).1
  · rw [String.toList_append, String.toList_append]
    exact plain_tail (plain_tail (num_soft _).1 (by decide +kernel)) (num_soft _).2

theorem opt_plain {α : Type} {o : Option α} {f : α → List String} (h : ∀ a, o = some a → ∀ w ∈ f a, Plain w.toList) :
    ∀ w ∈ (o.map f).getD [], Plain w.toList := by
  cases o with
  | none => nofun
  | some a => exact h a rfl

theorem termLine_plain {t : AppTerm} (h : ∀ p, t.proto = some p → Plain p.text.toList) :
    ∃ ws, termLine t = .stmt ws ∧ ws ≠ [] ∧ ∀ w ∈ ws, Plain w.toList := by
  refine ⟨_, rfl, by simp, ?_⟩
  intro w hw
  rcases List.mem_append.1 hw with hw | hw
  · rcases List.mem_append.1 hw with hw | hw
    · rcases List.mem_append.1 hw with hw | hw
      · rcases List.mem_append.1 hw with hw | hw
        · rcases List.mem_append.1 hw with hw | hw
          · refine plain2 (by decide +kernel) ?_ w hw
            rw [String.toList_append]
            exact plain_tail (by decide +kernel) (num_soft _).2
          · exact opt_plain (fun p hp => plain2 (by decide +kernel) (h p hp)) w hw
        · exact opt_plain (fun r _ => plain2 (show Plain "source-port".toList by decide +kernel) (portWord_plain r)) w hw
      · exact opt_plain (fun r _ => plain2 (show Plain "destination-port".toList by decide +kernel) (portWord_plain r)) w hw
    · refine opt_plain (fun k _ => plain2 ?_ (num_soft k).1) w hw
      rw [String.toList_append]
      cases hp : t.proto with
      | none => decide +kernel
      | some p => exact plain_tail (h p hp) (by decide +kernel)
  · exact opt_plain (fun k _ => plain2 (by decide +kernel) (num_soft k).1) w hw

theorem shows_terms : ∀ {ts : List AppTerm}, (∀ t ∈ ts, ∀ p, t.proto = some p → Plain p.text.toList) →
    ∃ is, Shows (ts.map termLine) is
  | [], _ => ⟨[], .nil⟩
  | t :: ts, h => by
    obtain ⟨is, hi⟩ := shows_terms (ts := ts) fun t ht => h t (List.mem_cons_of_mem _ ht)
    obtain ⟨ws, e, h0, hw⟩ := termLine_plain (h t (by simp))
    rw [List.map_cons, e]
    exact ⟨_, .stmt h0 hw hi⟩

theorem shows_def {n : Str} {ts : List AppTerm} (hn : Plain n) (h : ∀ t ∈ ts, ∀ p, t.proto = some p → Plain p.text.toList) :
    ∃ is, Shows (defLines (.app n ts)) is := by
  obtain ⟨is, hi⟩ := shows_terms h
  exact ⟨_, shows_wrap (by simp) (plain2 (by decide +kernel) (by rw [String.toList_ofList]; exact hn)) hi⟩

theorem shows_set {n : Str} {ms : List Str} (hn : Plain n) (h : ∀ m ∈ ms, Plain m) : ∃ is, Shows (defLines (.set n ms)) is :=
  ⟨_, shows_wrap (by simp) (plain2 (by decide +kernel) (by rw [String.toList_ofList]; exact hn))
    (shows_stmts (f := fun m => ["application", String.ofList m]) (by simp) fun m hm =>
      plain2 (by decide +kernel) (by rw [String.toList_ofList]; exact h m hm))⟩

theorem shows_many {α : Type} : ∀ {l : List α} {f : α → List Line}, (∀ a ∈ l, ∃ is, Shows (f a) is) → ∃ is, Shows (l.flatMap f) is
  | [], _, _ => ⟨[], .nil⟩
  | a :: l, f, h => by
    obtain ⟨is, hi⟩ := h a (by simp)
    obtain ⟨js, hj⟩ := shows_many (l := l) fun a ha => h a (List.mem_cons_of_mem _ ha)
    exact ⟨_, shows_append hi hj⟩

theorem icmpTerms_plain {a : App} (h : PlainApp a) : ∀ t ∈ icmpTerms a, ∀ p, t.proto = some p → Plain p.text.toList := by
  intro t ht p hp
  unfold icmpTerms at ht
  obtain ⟨k, _, ht⟩ := List.mem_flatMap.1 ht
  obtain ⟨q, hq, rfl⟩ := List.mem_map.1 ht
  cases hp
  exact h.protos _ hq

theorem portTerms_plain {a : App} (h : PlainApp a) : ∀ t ∈ portTerms a, ∀ p, t.proto = some p → Plain p.text.toList := by
  intro t ht p hp
  unfold portTerms at ht
  obtain ⟨e, he, rfl⟩ := List.mem_map.1 ht
  have he := (List.mem_zipIdx' he).2
  have he : e.1 ∈ _ := he ▸ List.getElem_mem _
  obtain ⟨q, hq, he⟩ := List.mem_flatMap.1 he
  obtain ⟨s, _, he⟩ := List.mem_flatMap.1 he
  obtain ⟨d, _, he⟩ := List.mem_map.1 he
  rw [← he] at hp
  replace hp : q.map vrrp = some p := hp
  cases q with
  | none => cases hp
  | some q =>
    cases hp
    have hq : q ∈ a.protos := by
      unfold orNone at hq
      split at hq
      · simp at hq
      · simpa using hq
    unfold vrrp
    split
    · decide +kernel
    · exact h.protos q hq

theorem shows_apps {apps : List App} (h : ∀ a ∈ apps, PlainApp a) : ∃ as, Shows (appLines apps) as := by
  unfold appLines
  have hs : ∀ a ∈ sortedApps apps, PlainApp a := by
    intro a ha
    unfold sortedApps at ha
    exact h a (mem_isort.1 (List.mem_filter.1 ha).1)
  have hport : ∀ a, PlainApp a → ∃ is, Shows ((portDefs a).flatMap defLines) is := by
    intro a ha
    refine shows_many fun d hd => ?_
    unfold portDefs at hd
    obtain ⟨t, ht, rfl⟩ := List.mem_map.1 hd
    refine shows_def (partName_plain ha.name _) fun u hu => ?_
    rw [List.mem_singleton.1 hu]
    exact portTerms_plain ha t ht
  have hicmp : ∀ a, PlainApp a → ∃ is, Shows (icmpLines a) is := by
    intro a ha
    unfold icmpLines
    split
    next hgt =>
      refine shows_many fun d hd => ?_
      unfold icmpDefs at hd
      rw [if_pos hgt] at hd
      rcases List.mem_cons.1 hd with rfl | hd
      · refine shows_set (appName_plain ha.name) fun m hm => ?_
        obtain ⟨i, _, rfl⟩ := List.mem_map.1 hm
        exact partName_plain ha.name _
      · obtain ⟨e, he, rfl⟩ := List.mem_map.1 hd
        have he := (List.mem_zipIdx' he).2
        have he : e.1 ∈ _ := he ▸ List.getElem_mem _
        refine shows_def (partName_plain ha.name _) fun u hu => ?_
        rw [List.mem_singleton.1 hu]
        exact icmpTerms_plain ha e.1 he
    next hgt =>
      rw [if_pos (by have := ha.terms; omega)]
      exact shows_def (appName_plain ha.name) (icmpTerms_plain ha)
  split
  · exact ⟨_, shows_one (by simp) (plain2 (by decide +kernel) (by decide +kernel))⟩
  · obtain ⟨is, hi⟩ := shows_many (l := sortedApps apps)
      (f := fun a => if a.types.isEmpty then (portDefs a).flatMap defLines else icmpLines a) (by
        intro a ha
        split
        · exact hport a (hs a ha)
        · exact hicmp a (hs a ha))
    obtain ⟨js, hj⟩ := shows_many (l := (sortedApps apps).filter fun a => a.types.isEmpty) (f := fun a => defLines (portSet a)) (by
      intro a ha
      have ha := hs a (List.mem_filter.1 ha).1
      refine shows_set (appName_plain ha.name) fun m hm => ?_
      obtain ⟨t, _, rfl⟩ := List.mem_map.1 hm
      exact partName_plain ha.name _)
    rw [List.cons_append, List.cons_append]
    exact ⟨_, shows_wrap (by simp) (plain2 (by decide +kernel) (by decide +kernel)) (shows_append hi hj)⟩

/-- A device reads the text as the address books, the policies in their filters, and the applications that its lines show: comments
and indentation change nothing. Missing for the whole statement: policies with several actions and applications with exactly eight
ICMP terms, whose braces do not match (C99), and words and comments that are not plain. -/
theorem C185_read_partial {text : Net → String} {books : List Book} {blocks : List BlockText} {apps : List App}
    (hb : ∀ b ∈ books, PlainBook text b) (hp : ∀ b ∈ blocks, PlainBlock b) (ha : ∀ a ∈ apps, PlainApp a) :
    ∃ as, Shows (appLines apps) as ∧ reads (configText text books blocks apps) =
      some (.block ["security".toList] (bookItems text books ++ [.block ["replace:".toList, "policies".toList] (blocks.map blockItem)]) :: as) := by
  obtain ⟨as, ha⟩ := shows_apps ha
  refine ⟨as, ha, ?_⟩
  have h1 := lines_opens (ws := ["security"]) 0 (by simp) (plain1 (by decide +kernel))
  have h2 := lines_note 1 (ls := tags) (by unfold Quiet; decide +kernel)
  have h3 := lines_opens (ws := ["replace:", "policies"]) 1 (by simp) (plain2 (by decide +kernel) (by decide +kernel))
  have h4 := lines_flatMap (f := blockText) (g := blockItem) fun b hb => lines_block (hp b hb)
  have all := lines_append h1 (lines_append (lines_books hb) (lines_append h2 (lines_append h3 (lines_append h4
    (lines_append (lines_closes2 2) (shows_lines ha 0))))))
  have hd : Delim (if (sortedApps apps).isEmpty then [] else ['\n']) := by
    split
    · exact .inl rfl
    · exact delim_nl _
  have e0 : lex (.out []) (if (sortedApps apps).isEmpty then [] else ['\n']) = [] := by
    split <;> decide +kernel
  have key := all _ hd
  rw [e0, List.append_nil, ← broken_joinNl (by simp), List.cons_append, lex_nl] at key
  unfold reads
  rw [← parse_all]
  congr 1
  refine Eq.trans key ?_
  simp [tokItems, tokItem, tokItems_append, wordsOf]

/-- The text of networks in the examples. -/
def exSrxNet (n : Net) : String := "10.0.0.0/" ++ toString n.plen

/-- The address books of two zones. -/
def exSrxBooks : List Book :=
  [⟨some "trust", [("WEB_0", { ver := .v4, addr := 167772160, plen := 8 })], [("WEB", ["WEB_0"])]⟩, ⟨some "untrust", [], []⟩]

/-- A filter with comments, groups, and policies with a tunnel and with logging. -/
def exSrxBlock : BlockText :=
  { fromZone := "trust", toZone := "untrust", groups := ["g1", "g2"], comments := ["a { comment\nof two lines".toList]
    policies := [
      { policy := { name := "web".toList, src := some ["WEB"], app := some "web".toList, dscp := ["af11"], thens :=
          [{ action := "permit", vpn := some ("v", ""), logs := ["session-close"], count := true }] },
        owner := some "me".toList, comments := ["allow; the web".toList] },
      { policy := { name := "rest".toList, thens := [{ action := "deny" }] } }] }

/-- Applications with ports, and with ICMP types. -/
def exSrxApps : List App :=
  [{ name := "web".toList, protos := [.str "tcp"], dport := [(80, 80), (443, 8443)] },
   { name := "ping".toList, protos := [.str "icmp"], types := [0, 8] }]

/-- These have plain words. -/
example : (∀ b ∈ exSrxBooks, PlainBook exSrxNet b) ∧ (∀ b ∈ [exSrxBlock], PlainBlock b) ∧ ∀ a ∈ exSrxApps, PlainApp a := by
  refine ⟨?_, ?_, ?_⟩
  · refine List.forall_mem_cons.2 ⟨⟨?_, by decide +kernel, by decide +kernel⟩,
      List.forall_mem_cons.2 ⟨⟨?_, by decide +kernel, by decide +kernel⟩, nofun⟩⟩
    · intro z hz; cases hz; decide +kernel
    · intro z hz; cases hz; decide +kernel
  · refine List.forall_mem_cons.2 ⟨⟨by decide +kernel, by decide +kernel, by unfold Quiet; decide +kernel, ?_⟩, nofun⟩
    refine List.forall_mem_cons.2 ⟨⟨⟨by decide +kernel, ?_, nofun, ?_, by decide +kernel, ?_⟩, by unfold Quiet; decide +kernel, ?_⟩,
      List.forall_mem_cons.2 ⟨⟨⟨by decide +kernel, nofun, nofun, nofun, by decide +kernel, ?_⟩, nofun, nofun⟩, nofun⟩⟩
    · intro l hl; cases hl; decide +kernel
    · intro l hl; cases hl; decide +kernel
    · refine ⟨_, rfl, by decide +kernel, ?_, nofun, by decide +kernel⟩
      intro v hv; cases hv; decide +kernel
    · intro o ho; cases ho; unfold Quiet; decide +kernel
    · exact ⟨_, rfl, by decide +kernel, nofun, nofun, nofun⟩
  · exact List.forall_mem_cons.2 ⟨⟨by decide +kernel, by decide +kernel, by decide +kernel⟩,
      List.forall_mem_cons.2 ⟨⟨by decide +kernel, by decide +kernel, by decide +kernel⟩, nofun⟩⟩

/-- A filter whose comment has the end of a comment in it. -/
def exSrxBroken : BlockText :=
  { fromZone := "a", toZone := "b", comments := ["x */ } } system; y { z { /*".toList]
    policies := [{ policy := { name := "t".toList, thens := [{ action := "deny" }] } }] }

/-- C185, what does not hold: a comment of a policy with the end of a comment in it is printed as it is, and the rest of it is read as
configuration. -/
theorem C185_refuted : ∀ as, Shows (appLines []) as → reads (configText exSrxNet [] [exSrxBroken] []) ≠
    some (.block ["security".toList] (bookItems exSrxNet [] ++ [.block ["replace:".toList, "policies".toList] [blockItem exSrxBroken]]) :: as) := by
  intro as ha e
  have h : (reads (configText exSrxNet [] [exSrxBroken] [])).map List.length = some 4 := by decide +kernel
  rw [e] at h
  have hl : appLines [] = [.stmt ["delete:", "applications"]] := rfl
  rw [hl] at ha
  cases ha with
  | stmt _ _ hr =>
    cases hr
    revert h
    simp

end Verif.Props
