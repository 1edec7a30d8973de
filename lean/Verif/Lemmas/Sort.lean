import Verif.Model.Sort

namespace Verif

theorem insertBy_perm (le : α → α → Bool) (x : α) (l : List α) :
    (insertBy le x l).Perm (x :: l) := by
  induction l with
  | nil => exact List.Perm.refl _
  | cons y ys ih =>
    unfold insertBy
    split
    · exact List.Perm.refl _
    · exact (List.Perm.cons y ih).trans (List.Perm.swap x y ys)

theorem isort_perm (le : α → α → Bool) (l : List α) : (isort le l).Perm l := by
  induction l with
  | nil => exact List.Perm.refl _
  | cons x xs ih => exact (insertBy_perm le x _).trans (List.Perm.cons x ih)

theorem mem_isort {le : α → α → Bool} {l : List α} {a : α} : a ∈ isort le l ↔ a ∈ l :=
  (isort_perm le l).mem_iff

theorem length_isort (le : α → α → Bool) (l : List α) : (isort le l).length = l.length :=
  (isort_perm le l).length_eq

/-- `le` is a total preorder. -/
structure TotalPre (le : α → α → Bool) : Prop where
  total : ∀ a b, le a b = true ∨ le b a = true
  trans : ∀ a b c, le a b = true → le b c = true → le a c = true

theorem insertBy_sorted {le : α → α → Bool} (h : TotalPre le) (x : α) {l : List α}
    (hl : l.Pairwise (fun a b => le a b = true)) :
    (insertBy le x l).Pairwise (fun a b => le a b = true) := by
  induction l with
  | nil => simp [insertBy]
  | cons y ys ih =>
    have hy := List.pairwise_cons.1 hl
    unfold insertBy
    split
    next hxy =>
      refine List.pairwise_cons.2 ⟨?_, hl⟩
      intro b hb
      rcases List.mem_cons.1 hb with rfl | hb
      · exact hxy
      · exact h.trans _ _ _ hxy (hy.1 b hb)
    next hxy =>
      refine List.pairwise_cons.2 ⟨?_, ih hy.2⟩
      intro b hb
      have : b ∈ x :: ys := (insertBy_perm le x ys).mem_iff.1 hb
      rcases List.mem_cons.1 this with rfl | hb
      · rcases h.total b y with h1 | h1
        · exact absurd h1 hxy
        · exact h1
      · exact hy.1 b hb

theorem isort_sorted {le : α → α → Bool} (h : TotalPre le) (l : List α) :
    (isort le l).Pairwise (fun a b => le a b = true) := by
  induction l with
  | nil => exact List.Pairwise.nil
  | cons x xs ih => exact insertBy_sorted h x ih

theorem isort_of_sorted {le : α → α → Bool} {l : List α}
    (hl : l.Pairwise (fun a b => le a b = true)) : isort le l = l := by
  induction l with
  | nil => rfl
  | cons x xs ih =>
    have hx := List.pairwise_cons.1 hl
    unfold isort
    rw [ih hx.2]
    cases xs with
    | nil => rfl
    | cons y ys => simp [insertBy, hx.1 y (List.mem_cons_self ..)]

/-- Stability: among elements equivalent under `le` the original order is kept. -/
theorem insertBy_filter {le : α → α → Bool} (p : α → Bool) (x : α) (l : List α)
    (hp : ∀ a b, p a = true → p b = true → le a b = true) :
    (insertBy le x l).filter p = (x :: l).filter p := by
  induction l with
  | nil => rfl
  | cons y ys ih =>
    unfold insertBy
    split
    · rfl
    next hxy =>
      rw [List.filter_cons, ih]
      by_cases hx : p x = true
      · by_cases hy : p y = true
        · exact absurd (hp x y hx hy) hxy
        · simp [List.filter_cons, hx, hy]
      · simp [List.filter_cons, hx]

theorem isort_stable {le : α → α → Bool} (p : α → Bool) (l : List α)
    (hp : ∀ a b, p a = true → p b = true → le a b = true) :
    (isort le l).filter p = l.filter p := by
  induction l with
  | nil => rfl
  | cons x xs ih =>
    unfold isort
    rw [insertBy_filter p x _ hp, List.filter_cons, List.filter_cons, ih]

end Verif
