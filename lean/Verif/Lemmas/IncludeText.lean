import Verif.Lemmas.Include
import Verif.Spec.List

namespace Verif
open Spec PyStr Include

theorem dropWhile_eq {p : Char → Bool} : ∀ (s : Str), ∃ a, s = a ++ s.dropWhile p ∧ (∀ c ∈ a, p c = true) ∧
    ∀ c, (s.dropWhile p).head? = some c → p c = false
  | [] => ⟨[], rfl, fun c hc => (by cases hc), fun c hc => (by cases hc)⟩
  | x :: xs => by
    rw [List.dropWhile_cons]
    split
    next h =>
      obtain ⟨a, h1, h2, h3⟩ := @dropWhile_eq p xs
      refine ⟨x :: a, by rw [List.cons_append, ← h1], fun c hc => ?_, h3⟩
      rcases List.mem_cons.1 hc with rfl | hc
      · exact h
      · exact h2 c hc
    next h =>
      refine ⟨[], rfl, fun c hc => (by cases hc), fun c hc => ?_⟩
      simp only [List.head?_cons, Option.some.injEq] at hc
      subst hc
      simpa using h

theorem dropWhile_app {p : Char → Bool} {a s : Str} (ha : ∀ c ∈ a, p c = true)
    (hs : ∀ c, s.head? = some c → p c = false) : (a ++ s).dropWhile p = s := by
  induction a with
  | nil =>
    cases s with
    | nil => rfl
    | cons x xs => rw [List.nil_append, List.dropWhile_cons, hs x rfl]; rfl
  | cons x xs ih =>
    rw [List.cons_append, List.dropWhile_cons, ha x (List.mem_cons_self ..), if_pos rfl]
    exact ih (fun c hc => ha c (List.mem_cons_of_mem _ hc))

/-- dropping at the end -/
theorem dropEnd_eq {p : Char → Bool} (s : Str) : ∃ b, s = (s.reverse.dropWhile p).reverse ++ b ∧ (∀ c ∈ b, p c = true) ∧
    ∀ c, ((s.reverse.dropWhile p).reverse).getLast? = some c → p c = false := by
  obtain ⟨a, h1, h2, h3⟩ := @dropWhile_eq p s.reverse
  refine ⟨a.reverse, ?_, fun c hc => h2 c (List.mem_reverse.1 hc), fun c hc => h3 c ?_⟩
  · rw [← List.reverse_append, ← h1, List.reverse_reverse]
  · rw [List.getLast?_reverse] at hc; exact hc

theorem dropEnd_app {p : Char → Bool} {s b : Str} (hb : ∀ c ∈ b, p c = true)
    (hs : ∀ c, s.getLast? = some c → p c = false) : ((s ++ b).reverse.dropWhile p).reverse = s := by
  rw [List.reverse_append, dropWhile_app (fun c hc => hb c (List.mem_reverse.1 hc)), List.reverse_reverse]
  intro c hc
  rw [List.head?_reverse] at hc
  exact hs c hc

theorem rstrip_iff {s t : Str} : rstrip s = t ↔ Trimmed s t := by
  constructor
  · rintro rfl
    obtain ⟨b, h1, h2, h3⟩ := @dropEnd_eq isSpace s
    exact ⟨b, h1, h2, h3⟩
  · rintro ⟨sp, rfl, h2, h3⟩
    exact dropEnd_app h2 h3

theorem isQuote_iff {c : Char} : isQuote c = true ↔ Quote c := by simp [isQuote, Quote]

theorem isQuote_false {c : Char} : isQuote c = false ↔ ¬ Quote c := by
  rw [← isQuote_iff, Bool.not_eq_true]

theorem stripQuotes_iff {w n : Str} : stripQuotes w = n ↔ ∃ q1 q2, w = q1 ++ n ++ q2 ∧ (∀ c ∈ q1, Quote c) ∧
    (∀ c ∈ q2, Quote c) ∧ (∀ c, n.head? = some c → ¬ Quote c) ∧ (∀ c, n.getLast? = some c → ¬ Quote c) := by
  unfold stripQuotes
  constructor
  · rintro rfl
    obtain ⟨a, h1, h2, h3⟩ := @dropWhile_eq isQuote w
    obtain ⟨b, h4, h5, h6⟩ := @dropEnd_eq isQuote (w.dropWhile isQuote)
    refine ⟨a, b, by rw [List.append_assoc, ← h4, ← h1], fun c hc => isQuote_iff.1 (h2 c hc),
      fun c hc => isQuote_iff.1 (h5 c hc), fun c hc => isQuote_false.1 (h3 c ?_), fun c hc => isQuote_false.1 (h6 c hc)⟩
    rw [h4]
    revert hc
    generalize (List.dropWhile isQuote (List.dropWhile isQuote w).reverse).reverse = m
    intro hc
    cases m with
    | nil => cases hc
    | cons x xs => exact hc
  · rintro ⟨q1, q2, rfl, h1, h2, h3, h4⟩
    cases n with
    | nil =>
      have : ∀ c ∈ q1 ++ [] ++ q2, isQuote c = true := by
        intro c hc
        rw [List.append_nil] at hc
        rcases List.mem_append.1 hc with hc | hc
        · exact isQuote_iff.2 (h1 c hc)
        · exact isQuote_iff.2 (h2 c hc)
      have h := dropWhile_app (p := isQuote) (a := q1 ++ [] ++ q2) (s := []) this (fun c hc => by cases hc)
      rw [List.append_nil] at h
      rw [h]; rfl
    | cons x xs =>
      rw [List.append_assoc, dropWhile_app (p := isQuote) (s := x :: xs ++ q2) (fun c hc => isQuote_iff.2 (h1 c hc))
        (fun c hc => isQuote_false.2 (h3 c hc))]
      exact dropEnd_app (fun c hc => isQuote_iff.2 (h2 c hc)) (fun c hc => isQuote_false.2 (h4 c hc))

/-- the first word and what follows it -/
theorem wordsAux_first : ∀ (s acc : Str), acc ≠ [] → ∃ v rest, s = v ++ rest ∧ (∀ c ∈ v, isSpace c = false) ∧
    (rest = [] ∨ ∃ c r, rest = c :: r ∧ isSpace c = true) ∧ wordsAux acc s = (acc.reverse ++ v) :: wordsAux [] rest
  | [], acc, hne => ⟨[], [], rfl, fun c hc => (by cases hc), .inl rfl, by
      cases acc with
      | nil => exact absurd rfl hne
      | cons a as => simp [wordsAux]⟩
  | x :: xs, acc, hne => by
    cases hx : isSpace x with
    | true =>
      refine ⟨[], x :: xs, rfl, fun c hc => (by cases hc), .inr ⟨x, xs, rfl, hx⟩, ?_⟩
      cases acc with
      | nil => exact absurd rfl hne
      | cons a as => rw [wordsAux, hx]; simp [wordsAux, hx]
    | false =>
      obtain ⟨v, rest, h1, h2, h3, h4⟩ := wordsAux_first xs (x :: acc) (by simp)
      refine ⟨x :: v, rest, by rw [h1]; rfl, fun c hc => ?_, h3, ?_⟩
      · rcases List.mem_cons.1 hc with rfl | hc
        · exact hx
        · exact h2 c hc
      · rw [wordsAux, hx, if_neg (by simp), h4]
        simp

theorem words_cons {s w : Str} {ws : List Str} : words s = w :: ws ↔ ∃ sp rest, s = sp ++ (w ++ rest) ∧ Blank sp ∧
    w ≠ [] ∧ (∀ c ∈ w, isSpace c = false) ∧ (rest = [] ∨ ∃ c r, rest = c :: r ∧ isSpace c = true) ∧ words rest = ws := by
  unfold words
  constructor
  · intro h
    obtain ⟨a, h1, h2, h3⟩ := @dropWhile_eq isSpace s
    rw [h1, wordsAux_blank h2] at h
    revert h1 h3 h
    generalize List.dropWhile isSpace s = t
    intro h h1 h3
    cases t with
    | nil => cases h
    | cons x xs =>
      have hx := h3 x rfl
      rw [wordsAux, hx, if_neg (by simp)] at h
      obtain ⟨v, rest, g1, g2, g3, g4⟩ := wordsAux_first xs [x] (by simp)
      rw [g4] at h
      simp only [List.reverse_cons, List.reverse_nil, List.nil_append, List.singleton_append, List.cons.injEq] at h
      obtain ⟨rfl, rfl⟩ := h
      refine ⟨a, rest, by rw [h1, g1]; rfl, h2, by simp, fun c hc => ?_, g3, rfl⟩
      rcases List.mem_cons.1 hc with rfl | hc
      · exact hx
      · exact g2 c hc
  · rintro ⟨sp, rest, rfl, h2, h3, h4, h5, rfl⟩
    rw [wordsAux_blank h2, wordsAux_word h4]
    rcases h5 with rfl | ⟨c, r, rfl, hc⟩
    · cases w with
      | nil => exact absurd rfl h3
      | cons a as => simp [wordsAux]
    · cases w with
      | nil => exact absurd rfl h3
      | cons a as => simp [wordsAux, hc]

theorem includes_text {fs : Files} {l p : Str} : Includes fs l p ↔
    ∃ name, IncludeText l name ∧ p = pathJoin fs.base name := by
  constructor
  · rintro ⟨w, ws, h, rfl⟩
    obtain ⟨sp1, r1, rfl, h1, _, _, h3, h4⟩ := words_cons.1 h
    obtain ⟨sp2, r2, rfl, g1, g2, g3, g4, _⟩ := words_cons.1 h4
    obtain ⟨q1, q2, k1, k2, k3, k4, k5⟩ := stripQuotes_iff.1 (rfl : stripQuotes w = stripQuotes w)
    refine ⟨stripQuotes w, ⟨sp1, sp2, q1, q2, r2, by rw [← k1], h1, g1, ?_, k2, k3, by rw [← k1]; exact g2, ?_, k4, k5, g4⟩, rfl⟩
    · rintro rfl
      rcases h3 with h3 | ⟨c, r, h3, hc⟩
      · simp at h3; exact g2 h3.1
      · cases w with
        | nil => exact g2 rfl
        | cons a as =>
          simp at h3
          rw [← h3.1, g3 a (List.mem_cons_self ..)] at hc
          cases hc
    · intro c hc
      refine g3 c ?_
      rw [k1]; simp [hc]
  · rintro ⟨name, ⟨sp1, sp2, q1, q2, tail, rfl, h1, h2, h3, h4, h5, h6, h7, h8, h9, h10⟩, rfl⟩
    refine ⟨q1 ++ name ++ q2, words tail, ?_, ?_⟩
    · refine words_cons.2 ⟨sp1, _, rfl, h1, by simp, by decide, .inr ?_, words_cons.2 ⟨sp2, tail, rfl, h2, h6, ?_, h10, rfl⟩⟩
      · cases sp2 with
        | nil => exact absurd rfl h3
        | cons c cs => exact ⟨c, _, rfl, h2 c (List.mem_cons_self ..)⟩
      · have hq : ∀ c, Quote c → isSpace c = false := by rintro c (rfl | rfl) <;> decide
        intro c hc
        rcases List.mem_append.1 hc with hc | hc
        · rcases List.mem_append.1 hc with hc | hc
          · exact hq c (h4 c hc)
          · exact h7 c hc
        · exact hq c (h5 c hc)
    · rw [stripQuotes_iff.2 ⟨q1, q2, rfl, h4, h5, h8, h9⟩]

theorem isBreak_iff {c : Char} : isBreak c = true ↔ Break c := by
  have e : ∀ d : Char, c = d ↔ c.toNat = d.toNat := fun d => ⟨fun h => by rw [h], fun h => Char.toNat_inj.1 h⟩
  unfold Break isBreak
  rw [e '\n', e '\r', List.contains_iff_mem]
  simp only [List.mem_cons, List.not_mem_nil, or_false]
  have h1 : '\n'.toNat = 10 := rfl
  have h2 : '\r'.toNat = 13 := rfl
  rw [h1, h2]
  omega

theorem isBreak_false {c : Char} (h : ¬ Break c) : isBreak c = false := by
  rw [← Bool.not_eq_true, isBreak_iff]; exact h

theorem splitAux_run {s : Str} (h : ∀ c ∈ s, ¬ Break c) : ∀ (acc rest : Str),
    splitLinesAux acc (s ++ rest) = splitLinesAux (s.reverse ++ acc) rest := by
  induction s with
  | nil => intros; rfl
  | cons x xs ih =>
    intro acc rest
    have hx := h x (List.mem_cons_self ..)
    rw [List.cons_append, splitLinesAux, isBreak_false hx, if_neg (by simp), ih (fun c hc => h c (List.mem_cons_of_mem _ hc))]
    · simp
    · intro cs hcr _
      exact absurd (.inr (.inl hcr)) hx

theorem splitAux_brk {acc rest : Str} {c : Char} (hb : Break c) (hn : ¬ (c = '\r' ∧ rest.head? = some '\n')) :
    splitLinesAux acc (c :: rest) = acc.reverse :: splitLinesAux [] rest := by
  rw [splitLinesAux]
  · rw [isBreak_iff.2 hb, if_pos rfl]
  · rintro cs h rfl
    exact hn ⟨h, rfl⟩

theorem linesOf_split {s : Str} {ls : List Str} (h : LinesOf s ls) : splitLinesAux [] s = ls := by
  induction h with
  | nil => rfl
  | last hne hs =>
    have := splitAux_run hs [] []
    simp only [List.append_nil] at this
    rw [this, splitLinesAux]
    simp [hne]
  | crlf hs _ ih => rw [splitAux_run hs, splitLinesAux, ih]; simp
  | brk hs hb hn _ ih => rw [splitAux_run hs, splitAux_brk hb hn, ih]; simp

theorem linesOf_exists : ∀ (n : Nat) (s : Str), s.length ≤ n → ∃ ls, LinesOf s ls
  | n, s, hn => by
    obtain ⟨a, h1, h2, h3⟩ := @dropWhile_eq (fun c => !isBreak c) s
    have ha : ∀ c ∈ a, ¬ Break c := by
      intro c hc hb
      have := h2 c hc
      rw [isBreak_iff.2 hb] at this; cases this
    revert h1 h3
    generalize List.dropWhile (fun c => !isBreak c) s = t
    intro h1 h3
    cases t with
    | nil =>
      rw [List.append_nil] at h1
      subst h1
      cases s with
      | nil => exact ⟨_, .nil⟩
      | cons x xs => exact ⟨_, .last (by simp) ha⟩
    | cons c rest =>
      have hc : Break c := isBreak_iff.1 (by simpa using h3 c rfl)
      subst h1
      rw [List.length_append, List.length_cons] at hn
      cases n with
      | zero => omega
      | succ n =>
        rcases Classical.em (c = '\r' ∧ rest.head? = some '\n') with ⟨rfl, hh⟩ | hh
        · cases rest with
          | nil => cases hh
          | cons d rest =>
            simp only [List.head?_cons, Option.some.injEq] at hh
            subst hh
            rw [List.length_cons] at hn
            obtain ⟨ls, hls⟩ := linesOf_exists n rest (by omega)
            exact ⟨_, .crlf ha hls⟩
        · obtain ⟨ls, hls⟩ := linesOf_exists n rest (by omega)
          exact ⟨_, .brk ha hc hh hls⟩

theorem dataLines_iff {data : Str} {ls : List Str} : dataLines data = ls ↔
    ∃ raw, LinesOf data raw ∧ All₂ Trimmed raw ls := by
  have map : ∀ {raw ls : List Str}, All₂ Trimmed raw ls ↔ raw.map rstrip = ls := by
    intro raw
    induction raw with
    | nil => intro ls; constructor
             · intro h; cases h; rfl
             · intro h; subst h; exact .nil
    | cons x xs ih =>
      intro ls
      constructor
      · intro h
        cases h with
        | cons h1 h2 => rw [List.map_cons, ih.1 h2, rstrip_iff.2 h1]
      · intro h
        subst h
        exact .cons (rstrip_iff.1 rfl) (ih.2 rfl)
  unfold dataLines
  constructor
  · intro h
    obtain ⟨raw, hr⟩ := linesOf_exists _ data (Nat.le_refl _)
    rw [linesOf_split hr] at h
    exact ⟨raw, hr, map.2 h⟩
  · rintro ⟨raw, hr, h⟩
    rw [linesOf_split hr]; exact map.1 h

end Verif
