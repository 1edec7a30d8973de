import Verif.Spec.Port
import Verif.Model.Port
import Verif.Lemmas.Parse

/-! Integer texts and port/protocol pairs. -/

namespace Verif
namespace Port
open Spec PyStr

theorem isDigit_iff {c : Char} : isDigit c = true ↔ Digit c := by
  unfold isDigit Digit
  rw [Bool.and_eq_true, decide_eq_true_eq, decide_eq_true_eq, Char.le_def, Char.le_def,
    UInt32.le_iff_toNat_le, UInt32.le_iff_toNat_le]
  rfl

/-- value of the digits, starting from `acc` -/
def valFrom (acc : Nat) (s : Str) : Nat :=
  (s.filter (· != '_')).foldl (fun n c => 10 * n + (c.toNat - 48)) acc

theorem digit_ne {c : Char} (h : Digit c) : (c != '_') = true := by
  rw [bne_iff_ne]
  rintro rfl
  unfold Digit at h
  have : '_'.toNat = 95 := rfl
  omega

theorem valFrom_cons {acc : Nat} {c : Char} {s : Str} (h : Digit c) :
    valFrom acc (c :: s) = valFrom (10 * acc + (c.toNat - 48)) s := by
  unfold valFrom
  rw [List.filter_cons, digit_ne h, if_pos rfl, List.foldl_cons]

theorem valFrom_under {acc : Nat} {s : Str} : valFrom acc ('_' :: s) = valFrom acc s := by
  unfold valFrom
  rw [List.filter_cons, show ('_' != '_') = false from rfl, if_neg (by simp)]

theorem numFrom_sound {acc : Nat} {s : Str} {v : Nat} (h : NumFrom acc s v) :
    digitsOk s = true ∧ valFrom acc s = v := by
  induction h with
  | one h =>
    refine ⟨?_, ?_⟩
    · rw [digitsOk]; exact isDigit_iff.2 h
    · rw [valFrom_cons h]; rfl
  | @more acc c s v h h2 ih =>
    refine ⟨?_, by rw [valFrom_cons h, ih.2]⟩
    match s, h2, ih with
    | [], h2, _ => cases h2
    | d :: s, h2, ih =>
      rcases Classical.em (d = '_') with rfl | hd
      · exfalso
        cases h2 with
        | one hd => exact absurd (digit_ne hd) (by decide)
        | more hd _ => exact absurd (digit_ne hd) (by decide)
        | under hd _ => exact absurd (digit_ne hd) (by decide)
      · rw [digitsOk]
        · rw [Bool.and_eq_true]; exact ⟨isDigit_iff.2 h, ih.1⟩
        · intro h; cases h
        · intro cs hh; cases hh; exact hd rfl
  | @under acc c s v h _ ih =>
    refine ⟨?_, by rw [valFrom_cons h, valFrom_under, ih.2]⟩
    rw [digitsOk, Bool.and_eq_true]; exact ⟨isDigit_iff.2 h, ih.1⟩

theorem numFrom_complete : ∀ (k : Nat) {s : Str} {acc : Nat}, s.length ≤ k → digitsOk s = true →
    NumFrom acc s (valFrom acc s)
  | 0, [], _, _, h => by cases h
  | 0, _ :: _, _, hk, _ => by simp at hk
  | k + 1, [], _, _, h => by cases h
  | k + 1, [c], acc, _, h => by
    rw [digitsOk] at h
    have hd := isDigit_iff.1 h
    rw [valFrom_cons hd]
    exact .one hd
  | k + 1, c :: d :: s, acc, hk, h => by
    simp only [List.length_cons] at hk
    rcases Classical.em (d = '_') with rfl | hd
    · rw [digitsOk, Bool.and_eq_true] at h
      have hd := isDigit_iff.1 h.1
      rw [valFrom_cons hd, valFrom_under]
      exact .under hd (numFrom_complete k (by omega) h.2)
    · rw [digitsOk] at h
      · rw [Bool.and_eq_true] at h
        have hd := isDigit_iff.1 h.1
        rw [valFrom_cons hd]
        exact .more hd (numFrom_complete k (by simp only [List.length_cons]; omega) h.2)
      · intro h; cases h
      · intro cs hh; cases hh; exact hd rfl

theorem numFrom_mem {acc : Nat} {s : Str} {v : Nat} (h : NumFrom acc s v) :
    s ≠ [] ∧ ∀ c ∈ s, Digit c ∨ c = '_' := by
  induction h with
  | one h => exact ⟨by simp, fun x hx => by simp at hx; subst hx; exact .inl h⟩
  | more h _ ih =>
    refine ⟨by simp, fun x hx => ?_⟩
    rcases List.mem_cons.1 hx with rfl | hx
    · exact .inl h
    · exact ih.2 x hx
  | under h _ ih =>
    refine ⟨by simp, fun x hx => ?_⟩
    rcases List.mem_cons.1 hx with rfl | hx
    · exact .inl h
    · rcases List.mem_cons.1 hx with rfl | hx
      · exact .inr rfl
      · exact ih.2 x hx

theorem digit_notSpace {c : Char} (h : Digit c ∨ c = '_' ∨ c = '+' ∨ c = '-') : isSpace c = false := by
  rcases h with h | rfl | rfl | rfl
  · unfold Digit at h
    unfold isSpace
    simp only [Bool.or_eq_false_iff, Bool.and_eq_false_iff, decide_eq_false_iff_not, beq_eq_false_iff_ne]
    omega
  all_goals decide

theorem strip_num {a d b : Str} (ha : Blank a) (hb : Blank b) (hne : d ≠ [])
    (hd : ∀ c ∈ d, isSpace c = false) : strip (a ++ (d ++ b)) = d :=
  strip_around ha hb (fun x hx => hd x (List.mem_of_mem_head? hx)) (fun x hx => hd x (List.mem_of_getLast? hx))

theorem digit_head {acc : Nat} {s : Str} {v : Nat} (h : NumFrom acc s v) : ∃ c cs, s = c :: cs ∧ Digit c := by
  cases h with
  | one h => exact ⟨_, _, rfl, h⟩
  | more h _ => exact ⟨_, _, rfl, h⟩
  | under h _ => exact ⟨_, _, rfl, h⟩

/-- the part of `pyInt` after stripping -/
def intBody (s : Str) : Option Int :=
  match s with
  | '-' :: ds => if digitsOk ds then some (-(digitsVal (ds.filter (· != '_')) : Int)) else none
  | '+' :: ds => if digitsOk ds then some (digitsVal (ds.filter (· != '_')) : Int) else none
  | ds => if digitsOk ds then some (digitsVal (ds.filter (· != '_')) : Int) else none

theorem pyInt_body (s : Str) : pyInt s = intBody (strip s) := rfl

theorem intBody_digit {c : Char} {cs : Str} (h : c ≠ '-') (h' : c ≠ '+') : intBody (c :: cs) =
    if digitsOk (c :: cs) then some (digitsVal ((c :: cs).filter (· != '_')) : Int) else none := by
  unfold intBody
  split
  next => rename_i hh; cases hh; exact absurd rfl h
  next => rename_i hh; cases hh; exact absurd rfl h'
  next => rfl

theorem strip_decomp (s : Str) : ∃ a b, Blank a ∧ Blank b ∧ s = a ++ (strip s ++ b) := by
  have hd : ∀ l : Str, ∃ a, Blank a ∧ l = a ++ l.dropWhile isSpace := by
    intro l
    refine ⟨l.takeWhile isSpace, fun c hc => mem_takeWhile hc, (List.takeWhile_append_dropWhile).symm⟩
  obtain ⟨a, ha, h1⟩ := hd s
  obtain ⟨b, hb, h2⟩ := hd (lstrip s).reverse
  refine ⟨a, b.reverse, ha, fun c hc => hb c (List.mem_reverse.1 hc), ?_⟩
  have : strip s ++ b.reverse = lstrip s := by
    unfold strip rstrip
    rw [← List.reverse_append, ← h2, List.reverse_reverse]
  rw [this]
  exact h1

theorem digit_noSign {c : Char} (h : Digit c) : c ≠ '-' ∧ c ≠ '+' := by
  constructor <;> rintro rfl <;> unfold Digit at h
  · have : '-'.toNat = 45 := rfl
    omega
  · have : '+'.toNat = 43 := rfl
    omega

/-- `int(s)` accepts exactly the integer texts. -/
theorem pyInt_iff {s : Str} {v : Int} : pyInt s = some v ↔ IntText s v := by
  rw [pyInt_body]
  have hval : ∀ ds : Str, digitsVal (ds.filter (· != '_')) = valFrom 0 ds := fun _ => rfl
  constructor
  · intro h
    obtain ⟨a, b, ha, hb, hs⟩ := strip_decomp s
    have hnum : ∀ ds, digitsOk ds = true → NumFrom 0 ds (valFrom 0 ds) := fun ds hh =>
      numFrom_complete ds.length (Nat.le_refl _) hh
    unfold intBody at h
    split at h
    next ds he =>
      split at h
      next hok =>
        cases h
        exact ⟨a, ds, b, _, ha, hb, hnum ds hok, .inr (.inr ⟨by rw [← he]; exact hs, by rw [hval]⟩)⟩
      next => cases h
    next ds he =>
      split at h
      next hok =>
        cases h
        exact ⟨a, ds, b, _, ha, hb, hnum ds hok, .inr (.inl ⟨by rw [← he]; exact hs, by rw [hval]⟩)⟩
      next => cases h
    next ds =>
      split at h
      next hok =>
        cases h
        exact ⟨a, strip s, b, _, ha, hb, hnum _ hok, .inl ⟨hs, by rw [hval]⟩⟩
      next => cases h
  · rintro ⟨a, d, b, n, ha, hb, hn, h⟩
    obtain ⟨h1, h2⟩ := numFrom_sound hn
    obtain ⟨hne, hc⟩ := numFrom_mem hn
    have hsp : ∀ c ∈ d, isSpace c = false := fun c hcm => by
      rcases hc c hcm with h | h
      · exact digit_notSpace (.inl h)
      · exact digit_notSpace (.inr (.inl h))
    rcases h with ⟨rfl, rfl⟩ | ⟨rfl, rfl⟩ | ⟨rfl, rfl⟩
    · rw [strip_num ha hb hne hsp]
      obtain ⟨c, cs, rfl, hdg⟩ := digit_head hn
      rw [intBody_digit (digit_noSign hdg).1 (digit_noSign hdg).2, if_pos h1, hval, h2]
    · rw [strip_num ha hb (by simp) (by
        intro c hcm
        rcases List.mem_cons.1 hcm with rfl | hcm
        · decide
        · exact hsp c hcm)]
      show (if digitsOk d then some (digitsVal (d.filter (· != '_')) : Int) else none) = _
      rw [if_pos h1, hval, h2]
    · rw [strip_num ha hb (by simp) (by
        intro c hcm
        rcases List.mem_cons.1 hcm with rfl | hcm
        · decide
        · exact hsp c hcm)]
      show (if digitsOk d then some (-(digitsVal (d.filter (· != '_')) : Int)) else none) = _
      rw [if_pos h1, hval, h2]

theorem pyInt_dec {s : Str} {n : Nat} (h : Dec s n) : pyInt s = some (n : Int) :=
  pyInt_iff.2 ⟨[], s, [], n, (by intro _ h; cases h), (by intro _ h; cases h), h.1, .inl ⟨by simp, rfl⟩⟩

theorem dec_digits {s : Str} {n : Nat} (h : Dec s n) : s ≠ [] ∧ ∀ c ∈ s, Digit c := by
  obtain ⟨h1, h2⟩ := numFrom_mem h.1
  refine ⟨h1, fun c hc => ?_⟩
  rcases h2 c hc with h' | rfl
  · exact h'
  · exact absurd hc h.2

theorem dec_noChar {s : Str} {n : Nat} (h : Dec s n) {c : Char} (hc : ¬ Digit c) : c ∉ s :=
  fun hm => hc ((dec_digits h).2 c hm)

theorem not_digit_dash : ¬ Digit '-' := by unfold Digit; decide
theorem not_digit_slash : ¬ Digit '/' := by unfold Digit; decide
theorem not_digit_hash : ¬ Digit '#' := by unfold Digit; decide

/-- `PPP` of a value. -/
theorem mkPPP_word {s : Str} (h : Word s) {p w : Str} (hs : s = p ++ '/' :: w) (hp : '/' ∉ p) (hw : '/' ∉ w) :
    mkPPP s = { service := s, port := some p, protocol := some w, nested := false } := by
  have h1 : strip (before '#' s) = s := by
    rw [before_none (fun hh => (h.2 _ hh).2 rfl), strip_nospace (fun c hc => (h.2 c hc).1)]
  unfold mkPPP
  dsimp only
  rw [h1]
  have h2 : splitOn '/' s = [p, w] := by rw [hs, splitOn_app hp, splitOn_none hw]
  rw [if_pos (by rw [hs]; simp), h2]
  rfl

theorem mkPPP_ref {s : Str} (h : Word s) (hs : '/' ∉ s) :
    mkPPP s = { service := s, port := none, protocol := none, nested := true } := by
  have h1 : strip (before '#' s) = s := by
    rw [before_none (fun hh => (h.2 _ hh).2 rfl), strip_nospace (fun c hc => (h.2 c hc).1)]
  unfold mkPPP
  dsimp only
  rw [h1, if_neg (by simpa using hs)]

end Port
end Verif
