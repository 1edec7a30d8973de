import Verif.Lemmas.Wrap

/-!
C176: the lines that comments are broken into.
-/

namespace Verif.Props
open Verif Verif.Wrap
open Verif.Spec.Wrapped (visible Solid NoSingles ShortWords)

/-- **C176**, the width: no line is longer than asked for. -/
theorem C176_width {size : Nat} (h : 1 ≤ size) (texts : List Str) : ∀ l ∈ (wrapWords size texts).2, l.length ≤ size := by
  intro l hl
  obtain ⟨t, _, ht⟩ := List.mem_flatMap.1 hl
  obtain ⟨hi, hn⟩ := textLines_mem ht
  unfold wrapText at hi
  split at hi
  · by_cases e : l = []
    · simp [e]
    · obtain ⟨p, hp, hlp⟩ := infix_join hn e hi
      exact Nat.le_trans hlp.length_le (findAll_mem h hp).2.1
  · exact Nat.le_trans hi.length_le (by omega)

/-- It does break lines: a text of 12 characters for a width of 5. -/
example : (wrapWords 5 ["to the hosts".toList]).2 = ["to".toList, "the".toList, "hosts".toList] := by decide +kernel

/-- **C176**, the lines: none has a line break, so that every line of the configuration for a comment has the mark that makes it one, here
`remark`. The name of the term has no line break either, as the policy language has no such names. -/
theorem C176_marked (size : Nat) (name : Str) (hname : '\n' ∉ name) (comments : List Str) :
    (∀ l ∈ (wrapWords size comments).2, '\n' ∉ l) ∧
    (∀ l ∈ (groupRemarks name comments).1, " remark ".toList <+: l ∧ '\n' ∉ l) ∧
    (∀ b owner, ∀ l ∈ (extendedRemarks b name owner comments).1, " remark ".toList <+: l ∧ '\n' ∉ l) := by
  have hr : '\n' ∉ " remark ".toList := by decide
  have h1 : ∀ (n : Nat) (cs : List Str), ∀ l ∈ (wrapWords n cs).2, '\n' ∉ l := by
    intro n cs l hl
    obtain ⟨t, _, ht⟩ := List.mem_flatMap.1 hl
    exact (textLines_mem ht).2
  have mk : ∀ {t : Str}, '\n' ∉ t → " remark ".toList <+: " remark ".toList ++ t ∧ '\n' ∉ " remark ".toList ++ t := fun ht =>
    ⟨List.prefix_append _ _, fun hm => (List.mem_append.1 hm).elim hr ht⟩
  refine ⟨h1 size comments, fun l hl => ?_, fun b owner l hl => ?_⟩
  · have h2 := h1 70 comments
    unfold groupRemarks at hl
    revert h2 hl
    generalize wrapWords 70 comments = w
    obtain ⟨kept, ls⟩ := w
    intro hl h2
    rcases List.mem_cons.1 hl with rfl | hl
    · exact mk hname
    · cases ls with
      | nil => exact nomatch hl
      | cons x ls =>
        by_cases hx : x = []
        · subst hx; exact absurd hl (by simp)
        · simp only [hx, if_false] at hl
          obtain ⟨c, hc, rfl⟩ := List.mem_map.1 hl
          exact mk (h2 c hc)
  · unfold extendedRemarks at hl
    rcases List.mem_append.1 hl with hl | hl
    · cases b with
      | false => simp at hl
      | true =>
        simp only [if_true, List.mem_singleton] at hl
        subst hl
        exact mk hname
    · obtain ⟨c, _, hc⟩ := List.mem_flatMap.1 hl
      obtain ⟨x, hx, rfl⟩ := List.mem_map.1 hc
      refine mk fun hm => (splitOn_infix hx).2 (List.mem_of_mem_take (i := 100) ?_)
      unfold PyStr.rstrip at hm
      have := (List.dropWhile_sublist PyStr.isSpace (l := (x.take 100).reverse)).subset (List.mem_reverse.1 hm)
      exact List.mem_reverse.1 this

/-- A comment of two lines, the second of which looks like a rule. -/
example : (extendedRemarks true "t".toList (some "me".toList) ["a\n permit ip any any".toList]).1 =
    [" remark t".toList, " remark a".toList, " remark  permit ip any any".toList, " remark Owner: me".toList] := by decide +kernel

/-- **C176**, what the lines show: if no word has only one character, all that can be seen of the texts can be seen in the lines. Missing:
words of one character, see `C176_refuted_lost`. -/
theorem C176_shown_partial {size : Nat} (h : 1 ≤ size) {texts : List Str} (hs : ∀ t ∈ texts, NoSingles t) :
    visible (wrapWords size texts).2.flatten = visible texts.flatten := by
  unfold wrapWords
  show visible (texts.flatMap fun t => textLines (wrapText size t)).flatten = _
  induction texts with
  | nil => rfl
  | cons t ts ih =>
    rw [List.flatMap_cons, List.flatten_append, List.flatten_cons, visible_append, visible_append, ih fun x hx => hs x (by simp [hx]),
      visible_textLines]
    congr 1
    unfold wrapText
    split
    · rw [visible_joinNl, findAll_visible h (run := 0) (Nat.le_refl _) (by simpa using paired_of (a := []) (hs t (by simp)))
        (fun h => absurd h (by omega))]
    · rfl

/-- Words of two characters and one longer than a line. -/
example : NoSingles "to thehosts".toList ∧ (wrapWords 5 ["to thehosts".toList]).2 = ["to".toList, "theho".toList, "sts".toList] := by
  refine ⟨fun a c b e hc => ?_, by decide +kernel⟩
  have hl : a.length ≤ 10 := by
    have := congrArg List.length e
    simp at this
    have h2 : "to thehosts".toList.length = 11 := by decide
    omega
  have ha : a = "to thehosts".toList.take a.length := by rw [e]; simp
  have hb : b = "to thehosts".toList.drop (a.length + 1) := by rw [e]; simp
  have hcc : "to thehosts".toList[a.length]? = some c := by rw [e]; simp
  revert ha hb hcc
  generalize a.length = n at hl
  intro ha hb hcc
  have : ∀ m, m ≤ 10 → ∀ c, "to thehosts".toList[m]? = some c → PyStr.isSpace c = false →
      (∃ d, ("to thehosts".toList.take m).getLast? = some d ∧ PyStr.isSpace d = false) ∨
      (∃ d, ("to thehosts".toList.drop (m + 1)).head? = some d ∧ PyStr.isSpace d = false) := by
    intro m hm c hc hs
    match m, hm with
    | 0, _ => exact .inr ⟨'o', by decide, by decide⟩
    | 1, _ => exact .inl ⟨'t', by decide, by decide⟩
    | 2, _ => rw [show "to thehosts".toList[2]? = some ' ' by decide] at hc; cases hc; exact absurd hs (by decide)
    | 3, _ => exact .inr ⟨'h', by decide, by decide⟩
    | 4, _ => exact .inl ⟨'t', by decide, by decide⟩
    | 5, _ => exact .inl ⟨'h', by decide, by decide⟩
    | 6, _ => exact .inl ⟨'e', by decide, by decide⟩
    | 7, _ => exact .inl ⟨'h', by decide, by decide⟩
    | 8, _ => exact .inl ⟨'o', by decide, by decide⟩
    | 9, _ => exact .inl ⟨'s', by decide, by decide⟩
    | 10, _ => exact .inl ⟨'t', by decide, by decide⟩
  rw [ha, hb]
  exact this n hl c hcc hc

/-- **C176** is false for words of one character: the last word of a text, where it does not fit into the line of the word before, is lost,
and so is a line of one character in a longer text. -/
theorem C176_refuted_lost :
    (wrapWords 5 ["hosts A".toList]).2 = ["hosts".toList] ∧ (wrapWords 5 ["on\nA\nhosts".toList]).2 = ["on".toList, "hosts".toList] := by
  decide +kernel

/-- **C176** is false for extended terms of Cisco, whose remarks show only the first 100 characters of a line. -/
theorem C176_refuted_cut (name : Str) (s : Str) (hn : '\n' ∉ s) (hs : Solid s) (hl : 100 < s.length) :
    (extendedRemarks false name none [s]).1 = [" remark ".toList ++ s.take 100] := by
  have e : PyStr.splitOn '\n' s = [s] := PyStr.splitOn_none hn
  have hr : PyStr.rstrip (s.take 100) = s.take 100 := by
    unfold PyStr.rstrip
    cases h : (s.take 100).reverse with
    | nil =>
      have := congrArg List.length h
      rw [List.length_reverse, List.length_take, List.length_nil] at this
      omega
    | cons c cs =>
      have hc : PyStr.isSpace c = false := hs c (List.mem_of_mem_take (i := 100) (List.mem_reverse.1 (by rw [h]; simp)))
      rw [List.dropWhile_cons, hc]
      simp [← h]
  simp [extendedRemarks, e, hr]

example : '\n' ∉ List.replicate 101 'x' ∧ Solid (List.replicate 101 'x') ∧ 100 < (List.replicate 101 'x').length :=
  ⟨by decide +kernel, by unfold Solid; decide +kernel, by decide +kernel⟩

/-- **C176**, wrapping again: the texts are replaced with the broken ones, as a term that is rendered for two families finds them, and if no
word is longer than a line, they are broken into the same lines. Missing: longer words, see `C176_refuted_again`. -/
theorem C176_again_partial {size : Nat} (h : 1 ≤ size) {texts : List Str} (hs : ∀ t ∈ texts, ShortWords size t) :
    wrapWords size (wrapWords size texts).1 = wrapWords size texts := by
  unfold wrapWords
  simp only [List.map_map, List.flatMap_map, Function.comp_def, Prod.mk.injEq]
  constructor
  · exact List.map_congr_left fun t ht => wrapText_again h (hs t ht)
  · induction texts with
    | nil => rfl
    | cons t ts ih =>
      rw [List.flatMap_cons, List.flatMap_cons, ih fun x hx => hs x (by simp [hx]), wrapText_again h (hs t (by simp))]

example : ShortWords 5 "ab cd".toList ∧ (wrapWords 4 ["ab cd".toList]).1 = ["ab\ncd".toList] :=
  ⟨fun _ hw _ => hw.length_le, by decide +kernel⟩

/-- **C176** is false when a word is longer than a line by one character: a term that is rendered twice shows less the second time. -/
theorem C176_refuted_again :
    (wrapWords 5 ["database".toList]).2 = ["datab".toList, "ase".toList] ∧
    (wrapWords 5 ["routes".toList]).2 = ["route".toList, "s".toList] ∧
    (wrapWords 5 (wrapWords 5 ["routes".toList]).1).2 = ["route".toList] := by
  decide +kernel

end Verif.Props
