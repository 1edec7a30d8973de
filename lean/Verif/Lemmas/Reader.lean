import Verif.Lemmas.Cgrep

/-!
Lemmas for the policy reader.
-/

namespace Verif.Lemmas.ReaderL
open Verif Verif.Lemmas
open Verif.Reader (St Filter line run closing wordsLine addAttr addTerm quotes word)
open Verif.Spec.Reader (Words EvenQuotes attrNames Neutral Skip HeaderBody TermBody said termOf TermsText FileText NextDiffers)

theorem run_append (s : St) (a b : List Words) : run s (a ++ b) = (do let s' ← run s a; run s' b) := by
  induction a generalizing s with
  | nil => rfl
  | cons l ls ih =>
    rw [List.cons_append, run, run]
    cases line s l with
    | error e => rfl
    | ok s' => exact ih s'

theorem run_cons {s s' : St} {l : Words} (ls : List Words) (h : line s l = .ok s') : run s (l :: ls) = run s' ls := by
  rw [run, h]
  rfl

theorem quotes_eq (ws : Words) : quotes ws = ws.flatten.count '"' := by
  unfold quotes
  induction ws with
  | nil => rfl
  | cons w ws ih =>
    rw [List.flatten_cons, List.count_append, ← ih]
    simp only [List.map_cons, List.sum_cons, List.count_eq_length_filter]

theorem even_quotes {ws : Words} (h : EvenQuotes ws) : ¬ quotes ws % 2 = 1 := by
  rw [quotes_eq]
  unfold EvenQuotes at h
  omega

theorem odd_quotes {ws : Words} (h : ¬ EvenQuotes ws) : quotes ws % 2 = 1 := by
  rw [quotes_eq]
  unfold EvenQuotes at h
  omega

/-- A line outside strings. -/
theorem line_even {s : St} {ws : Words} (hs : s.inString = false) (h : EvenQuotes ws) :
    line s ws = (do let s' ← wordsLine s ws; Except.ok (closing s' ws)) := by
  unfold line
  dsimp only
  rw [if_neg (even_quotes h), if_neg (by rw [hs]; simp)]

theorem closing_none {s : St} {ws : Words} (h : ['}'] ∉ ws) : closing s ws = s := by
  unfold closing
  rw [if_neg (by rw [List.contains_iff_mem]; exact h)]

theorem addAttr_none {t : Reader.Term} {w : Str} {vs : List Str}
    (h : ∀ k ∈ attrNames, w ≠ k ++ "::".toList) : addAttr t (w :: vs) = t := by
  have g : ∀ k ∈ attrNames, (w == k ++ "::".toList) = false := fun k hk => by
    rw [beq_eq_false_iff_ne]; exact h k hk
  have h1 : (w == "source-address::".toList) = false := by
    have := g "source-address".toList (by decide)
    rwa [show "source-address".toList ++ "::".toList = "source-address::".toList by decide] at this
  have h2 : (w == "destination-address::".toList) = false := by
    have := g "destination-address".toList (by decide)
    rwa [show "destination-address".toList ++ "::".toList = "destination-address::".toList by decide] at this
  have h3 : (w == "source-port::".toList) = false := by
    have := g "source-port".toList (by decide)
    rwa [show "source-port".toList ++ "::".toList = "source-port::".toList by decide] at this
  have h4 : (w == "destination-port::".toList) = false := by
    have := g "destination-port".toList (by decide)
    rwa [show "destination-port".toList ++ "::".toList = "destination-port::".toList by decide] at this
  have h5 : (w == "action::".toList) = false := by
    have := g "action".toList (by decide)
    rwa [show "action".toList ++ "::".toList = "action::".toList by decide] at this
  have h6 : (w == "protocol::".toList) = false := by
    have := g "protocol".toList (by decide)
    rwa [show "protocol".toList ++ "::".toList = "protocol::".toList by decide] at this
  have h7 : (w == "option::".toList) = false := by
    have := g "option".toList (by decide)
    rwa [show "option".toList ++ "::".toList = "option::".toList by decide] at this
  unfold addAttr
  simp only [List.headD_cons, h1, h2, h3, h4, h5, h6, h7, Bool.false_eq_true, if_false, List.append_nil]

/-- `wordsLine` with its three tests named. -/
theorem wordsLine_tests (s : St) (w : Str) (vs : List Str) {bh bt bg : Bool} (h1 : (w == "header".toList) = bh)
    (h2 : (w == "term".toList) = bt) (h3 : (w == "target::".toList) = bg) :
    wordsLine s (w :: vs) = (do
      let s := if bh then { s with inHeader := true } else s
      let s ← (if bt then do
          let n ← word (w :: vs) 1
          .ok { s with inTerm := true, term := { name := n } }
        else .ok s : Except Err St)
      let s ← (if s.inHeader && bg then do
          let n ← word (w :: vs) 2
          .ok (if s.filt.name != n then
              { s with objs := s.objs ++ [{ name := n }], cur := s.objs.length }
            else s)
        else .ok s : Except Err St)
      .ok (if s.inTerm then { s with term := addAttr s.term (w :: vs) } else s)) := by
  subst h1 h2 h3
  rfl

theorem beq_false {a b : Str} (h : a ≠ b) : (a == b) = false := by
  rw [beq_eq_false_iff_ne]; exact h

theorem wordsLine_neutral {s : St} {ws : Words} (h : Neutral ws) : wordsLine s ws = .ok s := by
  cases ws with
  | nil => rfl
  | cons w vs =>
    obtain ⟨h1, h2, h3, h4⟩ := h.2 w vs rfl
    rw [wordsLine_tests s w vs (beq_false h1) (beq_false h2) (beq_false h3)]
    simp only [bind, Except.bind, Bool.false_eq_true, if_false, Bool.and_false, addAttr_none h4, ite_self]

theorem line_neutral {s : St} {ws : Words} (hs : s.inString = false) (h : Neutral ws) (he : EvenQuotes ws) :
    line s ws = .ok s := by
  rw [line_even hs he, wordsLine_neutral h]
  show Except.ok (closing s ws) = _
  rw [closing_none h.1]

theorem run_mid {s : St} {mid : List Words} (hs : s.inString = true) (h : ∀ m ∈ mid, EvenQuotes m) :
    run s mid = .ok s := by
  induction mid with
  | nil => rfl
  | cons m ms ih =>
    have : line s m = .ok s := by
      unfold line
      dsimp only
      rw [if_neg (even_quotes (h m (List.mem_cons_self ..))), if_pos hs]
    rw [run_cons ms this]
    exact ih fun k hk => h k (List.mem_cons_of_mem _ hk)

theorem run_skip {s : St} {ls : List Words} (hs : s.inString = false) (h : Skip ls) : run s ls = .ok s := by
  induction h with
  | nil => rfl
  | line h1 h2 _ ih => rw [run_cons _ (line_neutral hs h1 h2)]; exact ih
  | @block o mid c ls h1 h2 h3 h4 _ ih =>
    have e1 : line s o = .ok { s with inString := true } := by
      unfold line
      dsimp only
      rw [if_pos (odd_quotes h1), hs]
      rfl
    have e2 : line { s with inString := true } c = .ok s := by
      unfold line
      dsimp only
      rw [if_pos (odd_quotes h3)]
      have : ({ s with inString := !true } : St) = s := by cases s; simp only at hs; subst hs; rfl
      dsimp only
      rw [if_neg (by simp), wordsLine_neutral h4]
      show Except.ok (closing _ c) = _
      rw [closing_none h4.1, this]
    rw [run_cons _ e1, run_append, run_mid rfl h2]
    show run _ (c :: ls) = _
    rw [run_cons _ e2]
    exact ih

/-! ### headers -/

theorem line_header {s : St} (hs : s.inString = false) (ht : s.inTerm = false) :
    line s ["header".toList, ['{']] = .ok { s with inHeader := true } := by
  rw [line_even hs (by unfold EvenQuotes; decide),
    wordsLine_tests s _ _ (bh := true) (bt := false) (bg := false) (by decide) (by decide) (by decide)]
  simp only [bind, Except.bind, Bool.false_eq_true, if_false, if_true, Bool.and_false, ht]
  rw [closing_none (by decide)]

theorem line_target {s : St} {name platform : Str} {opts : Words} (hs : s.inString = false) (ht : s.inTerm = false)
    (hh : s.inHeader = true) (he : EvenQuotes ("target::".toList :: platform :: name :: opts))
    (hc : ['}'] ∉ ("target::".toList :: platform :: name :: opts)) :
    line s ("target::".toList :: platform :: name :: opts) = .ok (if s.filt.name != name then
      { s with objs := s.objs ++ [{ name := name }], cur := s.objs.length } else s) := by
  rw [line_even hs he, wordsLine_tests s _ _ (bh := false) (bt := false) (bg := true) (by decide) (by decide) (by decide)]
  simp only [bind, Except.bind, Bool.false_eq_true, if_false, if_true, Bool.and_true, hh, word,
    List.getElem?_cons_succ, List.getElem?_cons_zero]
  rw [closing_none hc]
  split
  · rw [if_neg (by rw [ht]; simp)]
  · rw [if_neg (by rw [ht]; simp)]

theorem run_header {name : Str} {ls : List Words} {b : Bool} (h : HeaderBody name ls b) :
    ∀ s : St, s.inString = false → s.inTerm = false → s.inHeader = true →
      run s ls = .ok (if b && s.filt.name != name then
        { s with objs := s.objs ++ [{ name := name }], cur := s.objs.length } else s) := by
  induction h with
  | nil => intro s _ _ _; rfl
  | skip h1 _ ih =>
    intro s hs ht hh
    rw [run_append, run_skip hs h1]
    exact ih s hs ht hh
  | @target platform opts ls b he hc _ ih =>
    intro s hs ht hh
    rw [run_cons ls (line_target hs ht hh he hc)]
    by_cases hn : (s.filt.name != name) = true
    · rw [if_pos hn, ih { s with objs := s.objs ++ [{ name := name }], cur := s.objs.length } hs ht hh]
      have : St.filt { s with objs := s.objs ++ [{ name := name }], cur := s.objs.length } = { name := name } := by
        unfold St.filt
        simp
      rw [this, hn]
      simp
    · rw [if_neg hn, ih s hs ht hh]
      rw [Bool.not_eq_true] at hn
      rw [hn]
      simp

theorem line_close_header {s : St} (hs : s.inString = false) (ht : s.inTerm = false) (hh : s.inHeader = true) :
    line s [['}']] = .ok { s with out := s.out ++ [s.cur], inHeader := false } := by
  rw [line_even hs (by unfold EvenQuotes; decide)]
  have : wordsLine s [['}']] = .ok s := by
    rw [wordsLine_tests s _ _ (bh := false) (bt := false) (bg := false) (by decide) (by decide) (by decide)]
    simp only [bind, Except.bind, Bool.false_eq_true, if_false, Bool.and_false, ht]
  rw [this]
  show Except.ok (closing s [['}']]) = _
  unfold closing
  rw [if_pos (by decide), if_pos hh]
  dsimp only
  rw [if_neg (by rw [ht]; simp)]

/-! ### terms -/

theorem line_term {s : St} {name : Str} (hs : s.inString = false) (hq : '"' ∉ name)
    (hn : name ≠ ['}']) :
    line s ["term".toList, name, ['{']] = .ok { s with inTerm := true, term := { name := name } } := by
  have he : EvenQuotes ["term".toList, name, ['{']] := by
    unfold EvenQuotes
    have h0 : name.count '"' = 0 := List.count_eq_zero.2 hq
    simp [h0]
  rw [line_even hs he, wordsLine_tests s _ _ (bh := false) (bt := true) (bg := false) (by decide) (by decide) (by decide)]
  simp only [bind, Except.bind, word, List.getElem?_cons_succ, List.getElem?_cons_zero, Bool.false_eq_true, if_false,
    if_true, Bool.and_false]
  rw [addAttr_none (by decide), closing_none (by
    simp only [List.mem_cons, List.not_mem_nil, or_false, not_or]
    exact ⟨by decide, fun h => hn h.symm, by decide⟩)]

/-- what an attribute line adds -/
def plus (t : Reader.Term) (as : List (Str × List Str)) : Reader.Term :=
  { t with source := t.source ++ said as "source-address"
           destination := t.destination ++ said as "destination-address"
           sport := t.sport ++ said as "source-port"
           dport := t.dport ++ said as "destination-port"
           action := t.action ++ said as "action"
           option := t.option ++ said as "option"
           protocol := t.protocol ++ said as "protocol" }

theorem plus_nil (t : Reader.Term) : plus t [] = t := by
  simp only [plus, said, List.flatMap_nil, List.append_nil]

theorem said_one (k : Str) (vs : List Str) (n : String) : said [(k, vs)] n = if k = n.toList then vs else [] := by
  simp only [said, List.flatMap_cons, List.flatMap_nil, List.append_nil]

theorem said_cons (a : Str × List Str) (as : List (Str × List Str)) (k : String) :
    said (a :: as) k = (if a.1 = k.toList then a.2 else []) ++ said as k := by
  unfold said
  rw [List.flatMap_cons]

theorem plus_plus (t : Reader.Term) (a : Str × List Str) (as : List (Str × List Str)) :
    plus (plus t [a]) as = plus t (a :: as) := by
  unfold plus
  simp only [said_cons, List.append_assoc]
  simp only [said, List.flatMap_nil, List.nil_append]

theorem key_test (k : Str) {n m : String} (h : m.toList = n.toList ++ "::".toList) :
    (k ++ "::".toList == m.toList) = decide (k = n.toList) := by
  rw [h, Bool.eq_iff_iff, beq_iff_eq, decide_eq_true_eq]
  exact List.append_left_inj _

theorem addAttr_plus (t : Reader.Term) (k : Str) (vs : List Str) :
    addAttr t ((k ++ "::".toList) :: vs) = plus t [(k, vs)] := by
  have h1 := key_test k (n := "source-address") (m := "source-address::") (by decide)
  have h2 := key_test k (n := "destination-address") (m := "destination-address::") (by decide)
  have h3 := key_test k (n := "source-port") (m := "source-port::") (by decide)
  have h4 := key_test k (n := "destination-port") (m := "destination-port::") (by decide)
  have h5 := key_test k (n := "action") (m := "action::") (by decide)
  have h6 := key_test k (n := "protocol") (m := "protocol::") (by decide)
  have h7 := key_test k (n := "option") (m := "option::") (by decide)
  unfold addAttr plus
  simp only [List.headD_cons, List.drop_succ_cons, List.drop_zero, h1, h2, h3, h4, h5, h6, h7, said_one,
    decide_eq_true_eq]

theorem attr_head {k : Str} (hk : k ∈ attrNames) : k ++ "::".toList ≠ "header".toList ∧
    k ++ "::".toList ≠ "term".toList ∧ k ++ "::".toList ≠ "target::".toList ∧ k ++ "::".toList ≠ ['}'] ∧
    (k ++ "::".toList).count '"' = 0 := by
  revert k
  decide

theorem line_attr {s : St} {k : Str} {vs : List Str} (hs : s.inString = false) (ht : s.inTerm = true)
    (hk : k ∈ attrNames) (he : EvenQuotes vs) (hc : ['}'] ∉ vs) :
    line s ((k ++ "::".toList) :: vs) = .ok { s with term := plus s.term [(k, vs)] } := by
  obtain ⟨h1, h2, h3, h4, h5⟩ := attr_head hk
  have he' : EvenQuotes ((k ++ "::".toList) :: vs) := by
    unfold EvenQuotes at he ⊢
    rw [List.flatten_cons, List.count_append, h5, Nat.zero_add]
    exact he
  rw [line_even hs he', wordsLine_tests s _ _ (beq_false h1) (beq_false h2) (beq_false h3)]
  simp only [bind, Except.bind, Bool.false_eq_true, if_false, Bool.and_false, ht, if_true]
  rw [addAttr_plus _ k vs, closing_none (by
    rw [List.mem_cons, not_or]; exact ⟨fun h => h4 h.symm, hc⟩)]

theorem run_term {ls : List Words} {as : List (Str × List Str)} (h : TermBody ls as) :
    ∀ s : St, s.inString = false → s.inTerm = true → run s ls = .ok { s with term := plus s.term as } := by
  induction h with
  | nil => intro s _ _; rw [plus_nil]; rfl
  | skip h1 _ ih =>
    intro s hs ht
    rw [run_append, run_skip hs h1]
    exact ih s hs ht
  | attr hk he hc _ ih =>
    intro s hs ht
    rw [run_cons _ (line_attr hs ht hk he hc), ih { s with term := plus s.term [_] } hs ht]
    dsimp only
    rw [plus_plus]

theorem line_close_term {s : St} (hs : s.inString = false) (ht : s.inTerm = true) (hh : s.inHeader = false) :
    line s [['}']] = .ok (addTerm s) := by
  rw [line_even hs (by unfold EvenQuotes; decide)]
  have : wordsLine s [['}']] = .ok s := by
    rw [wordsLine_tests s _ _ (bh := false) (bt := false) (bg := false) (by decide) (by decide) (by decide)]
    simp only [bind, Except.bind, Bool.false_eq_true, if_false, Bool.and_false]
    rw [if_pos ht, addAttr_none (by decide)]
  rw [this]
  show Except.ok (closing s [['}']]) = _
  unfold closing
  rw [if_pos (by decide)]
  simp only [hh, Bool.false_eq_true, if_false]
  rw [if_pos ht]

theorem modify_last (g : α → α) (l : List α) (x : α) : (l ++ [x]).modify l.length g = l ++ [g x] := by
  induction l with
  | nil => rfl
  | cons y l ih =>
    rw [List.cons_append, List.length_cons, List.modify_succ_cons, ih]
    rfl

/-- The state between definitions, with the filters read so far: the current one is the last object, and the
list of filters refers to all objects but the first. -/
structure Ready (s : St) (fs : List Filter) (first : Filter) : Prop where
  str : s.inString = false
  term : s.inTerm = false
  header : s.inHeader = false
  objs : s.objs = first :: fs
  cur : s.cur = fs.length
  out : s.out = List.range' 1 fs.length

theorem run_terms {tl : List Words} {ts : List Reader.Term} (h : TermsText tl ts) :
    ∀ (s : St) (fs : List Filter) (f first : Filter), Ready s (fs ++ [f]) first →
      ∃ s', run s tl = .ok s' ∧ Ready s' (fs ++ [{ f with term := f.term ++ ts }]) first := by
  induction h with
  | nil => intro s fs f first hr; exact ⟨s, rfl, by rw [List.append_nil]; exact hr⟩
  | skip h1 _ ih =>
    intro s fs f first hr
    rw [run_append, run_skip hr.str h1]
    exact ih s fs f first hr
  | @term name body ls as ts hq hn hb _ ih =>
    intro s fs f first hr
    rw [run_cons _ (line_term hr.str hq hn), run_append,
      run_term hb { s with inTerm := true, term := { name := name } } hr.str rfl]
    simp only [bind, Except.bind]
    rw [run_cons ls (line_close_term (s := { s with inTerm := true, term := plus { name := name } as }) hr.str rfl
      hr.header)]
    have hp : plus { name := name } as = termOf name as := by simp only [plus, termOf, List.nil_append]
    obtain ⟨s', e1, e2⟩ := ih (addTerm { s with inTerm := true, term := plus { name := name } as }) fs
      { f with term := f.term ++ [termOf name as] } first ⟨hr.str, rfl, hr.header, by
        unfold addTerm
        dsimp only
        rw [hr.objs, hr.cur, hp]
        have : (fs ++ [f]).length = (first :: fs).length := by simp
        rw [this, ← List.cons_append, modify_last]
        rfl, by
        unfold addTerm
        dsimp only
        rw [hr.cur]; simp, by
        unfold addTerm
        dsimp only
        rw [hr.out]; simp⟩
    refine ⟨s', e1, ?_⟩
    have := e2
    rw [show ({ f with term := f.term ++ termOf name as :: ts } : Filter) =
      { f with term := (f.term ++ [termOf name as]) ++ ts } by rw [List.append_assoc]; rfl]
    exact e2

theorem run_file {ls : List Words} {fs : List Filter} (h : FileText ls fs) :
    ∀ (s : St) (done : List Filter) (first : Filter) (prev : Str), Ready s done first →
      (((first :: done)[done.length]?).getD {}).name = prev → NextDiffers prev fs →
      ∃ s', run s ls = .ok s' ∧ Ready s' (done ++ fs) first := by
  induction h with
  | nil => intro s done first prev hr _ _; exact ⟨s, rfl, by rw [List.append_nil]; exact hr⟩
  | skip h1 _ ih =>
    intro s done first prev hr hp hd
    rw [run_append, run_skip hr.str h1]
    exact ih s done first prev hr hp hd
  | @filter name hb tl ls ts fs hh ht _ ih =>
    intro s done first prev hr hp hd
    have hname : (St.filt { s with inHeader := true }).name = prev := by
      unfold St.filt
      dsimp only
      rw [hr.objs, hr.cur, hp]
    rw [run_cons _ (line_header hr.str hr.term), run_append,
      run_header hh { s with inHeader := true } hr.str hr.term rfl, hname]
    have hne : (true && prev != name) = true := by
      rw [Bool.true_and, bne_iff_ne]
      exact fun e => hd.1 e.symm
    rw [if_pos hne]
    simp only [bind, Except.bind]
    rw [run_cons _ (line_close_header (s := { s with objs := s.objs ++ [{ name := name }], cur := s.objs.length, inHeader := true })
      hr.str hr.term rfl), run_append]
    obtain ⟨s1, e1, r1⟩ := run_terms ht
      { s with objs := s.objs ++ [{ name := name }], cur := s.objs.length, out := s.out ++ [s.objs.length], inHeader := false }
      done { name := name } first ⟨hr.str, hr.term, rfl, by
        dsimp only
        rw [hr.objs]; rfl, by
        dsimp only
        rw [hr.objs]; simp, by
        dsimp only
        rw [hr.objs, hr.out, List.length_append, List.length_singleton, List.range'_1_concat]
        simp [Nat.add_comm]⟩
    dsimp only at e1 ⊢
    rw [e1]
    simp only [bind, Except.bind]
    rw [List.nil_append] at r1
    obtain ⟨s2, e2, r2⟩ := ih s1 (done ++ [{ name := name, term := ts }]) first name r1 (by
      rw [List.length_append, List.length_singleton, List.getElem?_cons_succ]
      simp) hd.2
    exact ⟨s2, e2, by rw [List.append_assoc] at r2; exact r2⟩

end Verif.Lemmas.ReaderL
