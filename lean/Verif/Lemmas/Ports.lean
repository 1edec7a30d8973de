import Verif.Spec.Policy
import Verif.Lemmas.Sort
import Verif.Lemmas.Canonical

namespace Verif
open Spec Policy

theorem portLe_total : TotalPre portLe where
  total := by intro a b; simp only [portLe, Bool.or_eq_true, Bool.and_eq_true, decide_eq_true_eq, beq_iff_eq]; omega
  trans := by intro a b c; simp only [portLe, Bool.or_eq_true, Bool.and_eq_true, decide_eq_true_eq, beq_iff_eq]; omega

theorem pmem_nil (x) : PMem [] x ↔ False := by simp [PMem]
theorem pmem_cons (r : Nat × Nat) (l x) : PMem (r :: l) x ↔ (r.1 ≤ x ∧ x ≤ r.2) ∨ PMem l x := by
  simp [PMem]
theorem pmem_perm {l m : List (Nat × Nat)} (h : l.Perm m) : SamePorts l m := by
  intro x; simp only [PMem, h.mem_iff]
theorem pmem_reverse (l : List (Nat × Nat)) (x) : PMem l.reverse x ↔ PMem l x := by simp [PMem]

/-- invariant of the reversed result stack -/
structure PInv (R : List (Nat × Nat)) : Prop where
  wf : PWF R
  sorted : R.Pairwise (fun a b => b.1 ≤ a.1 ∧ b.2 < a.2)

theorem pushPort_inv {R : List (Nat × Nat)} {p : Nat × Nat} (h : PInv R) (hp : p.1 ≤ p.2)
    (hle : ∀ r ∈ R, r.1 ≤ p.1) :
    PInv (pushPort R p) ∧ (∀ x, PMem (pushPort R p) x ↔ PMem R x ∨ (p.1 ≤ x ∧ x ≤ p.2)) ∧
    (∀ r ∈ pushPort R p, r.1 ≤ p.1) := by
  cases R with
  | nil =>
    refine ⟨⟨by simpa [pushPort, PWF] using hp, by simp [pushPort]⟩, ?_, by simp [pushPort]⟩
    intro x; simp [pushPort, pmem_cons, pmem_nil]
  | cons l rest =>
    have hl1 := hle l (List.mem_cons_self ..)
    have hl2 := h.wf l (List.mem_cons_self ..)
    have hs := List.pairwise_cons.1 h.sorted
    have merge : l.2 < p.2 → p.1 ≤ l.2 + 1 →
        PInv ((l.1, p.2) :: rest) ∧
        (∀ x, PMem ((l.1, p.2) :: rest) x ↔ PMem (l :: rest) x ∨ (p.1 ≤ x ∧ x ≤ p.2)) ∧
        (∀ r ∈ (l.1, p.2) :: rest, r.1 ≤ p.1) := by
      intro h1 h2
      refine ⟨⟨?_, ?_⟩, ?_, ?_⟩
      · intro r hr
        rcases List.mem_cons.1 hr with rfl | hr
        · simp only; omega
        · exact h.wf r (List.mem_cons_of_mem _ hr)
      · refine List.pairwise_cons.2 ⟨?_, hs.2⟩
        intro r hr
        have := hs.1 r hr
        simp only; omega
      · intro x
        simp only [pmem_cons]
        constructor
        · rintro (hx | hx)
          · rcases Nat.lt_or_ge l.2 x with hh | hh
            · right; omega
            · left; left; omega
          · exact .inl (.inr hx)
        · rintro ((hx | hx) | hx)
          · left; omega
          · exact .inr hx
          · left; omega
      · intro r hr
        rcases List.mem_cons.1 hr with rfl | hr
        · simpa using hl1
        · exact hle r (List.mem_cons_of_mem _ hr)
    rw [show pushPort (l :: rest) p = if l.2 ≥ p.2 then l :: rest else if p.1 < l.2 ∧ l.2 < p.2 then (l.1, p.2) :: rest else if l.2 + 1 = p.1 then (l.1, p.2) :: rest else p :: l :: rest from rfl]
    split
    next h1 =>
      refine ⟨h, ?_, hle⟩
      intro x
      simp only [pmem_cons]
      constructor
      · exact .inl
      · rintro (hx | hx)
        · exact hx
        · left; omega
    next h1 =>
      split
      next h2 => exact merge (by omega) (by omega)
      next h2 =>
        split
        next h3 => exact merge (by omega) (by omega)
        next h3 =>
          refine ⟨⟨?_, ?_⟩, ?_, ?_⟩
          · intro r hr
            rcases List.mem_cons.1 hr with rfl | hr
            · exact hp
            · exact h.wf r hr
          · refine List.pairwise_cons.2 ⟨?_, h.sorted⟩
            intro r hr
            refine ⟨hle r hr, ?_⟩
            rcases List.mem_cons.1 hr with rfl | hr
            · omega
            · have := hs.1 r hr; omega
          · intro x
            rw [pmem_cons p]
            constructor
            · rintro (a | a)
              · exact .inr a
              · exact .inl a
            · rintro (a | a)
              · exact .inr a
              · exact .inl a
          · intro r hr
            rcases List.mem_cons.1 hr with rfl | hr
            · omega
            · exact hle r hr

theorem foldl_pushPort : ∀ (l R : List (Nat × Nat)), PInv R → PWF l →
    (∀ r ∈ R, ∀ p ∈ l, r.1 ≤ p.1) → l.Pairwise (fun a b => portLe a b = true) →
    PInv (l.foldl pushPort R) ∧ (∀ x, PMem (l.foldl pushPort R) x ↔ PMem R x ∨ PMem l x) := by
  intro l
  induction l with
  | nil => intro R h _ _ _; exact ⟨h, fun x => by simp [pmem_nil]⟩
  | cons p ps ih =>
    intro R h hw hle hs
    have hs' := List.pairwise_cons.1 hs
    obtain ⟨k1, k2, k3⟩ := pushPort_inv h (hw p (List.mem_cons_self ..))
      (fun r hr => hle r hr p (List.mem_cons_self ..))
    obtain ⟨m1, m2⟩ := ih (pushPort R p) k1 (fun r hr => hw r (List.mem_cons_of_mem _ hr))
      (by
        intro r hr q hq
        have a := k3 r hr
        have b := hs'.1 q hq
        simp only [portLe, Bool.or_eq_true, Bool.and_eq_true, decide_eq_true_eq, beq_iff_eq] at b
        omega) hs'.2
    refine ⟨m1, fun x => ?_⟩
    rw [List.foldl_cons, m2, k2, pmem_cons, or_assoc]

theorem collapsePortList_spec (l : List (Nat × Nat)) (hw : PWF l) :
    PWF (collapsePortList l) ∧ SamePorts (collapsePortList l) l ∧
    (collapsePortList l).Pairwise (fun a b => a.1 ≤ b.1 ∧ a.2 < b.2) := by
  have hp := isort_perm portLe l
  obtain ⟨k1, k2⟩ := foldl_pushPort (isort portLe l) [] ⟨by simp [PWF], List.Pairwise.nil⟩
    (fun r hr => hw r (mem_isort.1 hr)) (by simp) (isort_sorted portLe_total l)
  refine ⟨?_, ?_, ?_⟩
  · intro r hr
    exact k1.wf r (by simpa [collapsePortList] using hr)
  · intro x
    unfold collapsePortList
    rw [pmem_reverse, k2, pmem_nil, false_or]
    exact pmem_perm hp x
  · unfold collapsePortList
    rw [List.pairwise_reverse]
    exact k1.sorted

theorem collapsePortList_nil : collapsePortList [] = [] := rfl

theorem collapsePortList_ne_nil {l : List (Nat × Nat)} (hw : PWF l) (h : l ≠ []) :
    collapsePortList l ≠ [] := by
  intro he
  cases l with
  | nil => exact h rfl
  | cons r rs =>
    have := (collapsePortList_spec _ hw).2.1 r.1
    rw [he, pmem_nil, pmem_cons] at this
    exact this.2 (.inl ⟨Nat.le_refl _, hw r (List.mem_cons_self ..)⟩)

/-! ### minimality -/

/-- upper ends come from the input -/
theorem pushPort_hi {R : List (Nat × Nat)} {p : Nat × Nat} :
    ∀ r ∈ pushPort R p, r.2 = p.2 ∨ ∃ q ∈ R, q.2 = r.2 := by
  cases R with
  | nil => simp [pushPort]
  | cons l rest =>
    unfold pushPort
    intro r hr
    grind

theorem pushPort_gap {R : List (Nat × Nat)} {p : Nat × Nat}
    (h : R.Pairwise (fun a b => b.2 + 1 < a.1)) (hw : PWF R)
    (hp : ∀ q ∈ R, q.2 = p.1 → p.2 ≤ q.2) (hs : R.Pairwise (fun a b => b.1 ≤ a.1 ∧ b.2 < a.2)) :
    (pushPort R p).Pairwise (fun a b => b.2 + 1 < a.1) := by
  cases R with
  | nil => simp [pushPort]
  | cons l rest =>
    have h' := List.pairwise_cons.1 h
    have hl := hw l (List.mem_cons_self ..)
    have hq := hp l (List.mem_cons_self ..)
    rw [show pushPort (l :: rest) p = if l.2 ≥ p.2 then l :: rest else if p.1 < l.2 ∧ l.2 < p.2 then (l.1, p.2) :: rest else if l.2 + 1 = p.1 then (l.1, p.2) :: rest else p :: l :: rest from rfl]
    split
    · exact h
    · split
      · exact List.pairwise_cons.2 ⟨h'.1, h'.2⟩
      · split
        · exact List.pairwise_cons.2 ⟨h'.1, h'.2⟩
        · refine List.pairwise_cons.2 ⟨?_, h⟩
          intro r hr
          rcases List.mem_cons.1 hr with rfl | hr
          · omega
          · have := h'.1 r hr; omega

theorem foldl_pushPort_gap : ∀ (l R : List (Nat × Nat)) (H : List (Nat × Nat)), PInv R → PWF l →
    (∀ r ∈ R, ∀ p ∈ l, r.1 ≤ p.1) → l.Pairwise (fun a b => portLe a b = true) →
    (∀ r ∈ R, ∃ q ∈ H, q.2 = r.2) → (∀ p ∈ l, p ∈ H) →
    (∀ p ∈ H, ∀ q ∈ H, p.2 = q.1 → q.2 ≤ p.2) →
    R.Pairwise (fun a b => b.2 + 1 < a.1) →
    (l.foldl pushPort R).Pairwise (fun a b => b.2 + 1 < a.1) := by
  intro l
  induction l with
  | nil => intro R H _ _ _ _ _ _ _ h; exact h
  | cons p ps ih =>
    intro R H h hw hle hs hR hl hH hg
    have hs' := List.pairwise_cons.1 hs
    have hpH := hl p (List.mem_cons_self ..)
    obtain ⟨k1, k2, k3⟩ := pushPort_inv h (hw p (List.mem_cons_self ..))
      (fun r hr => hle r hr p (List.mem_cons_self ..))
    refine ih (pushPort R p) H k1 (fun r hr => hw r (List.mem_cons_of_mem _ hr)) ?_ hs'.2 ?_
      (fun q hq => hl q (List.mem_cons_of_mem _ hq)) hH ?_
    · intro r hr q hq
      have a := k3 r hr
      have b := hs'.1 q hq
      simp only [portLe, Bool.or_eq_true, Bool.and_eq_true, decide_eq_true_eq, beq_iff_eq] at b
      omega
    · intro r hr
      rcases pushPort_hi r hr with e | ⟨q, hq, e⟩
      · exact ⟨p, hpH, e.symm⟩
      · obtain ⟨q', hq', e'⟩ := hR q hq
        exact ⟨q', hq', e'.trans e⟩
    · refine pushPort_gap hg h.wf ?_ h.sorted
      intro q hq e
      obtain ⟨q', hq', e'⟩ := hR q hq
      have := hH q' hq' p hpH (by omega)
      omega

theorem collapsePortList_gap (l : List (Nat × Nat)) (hw : PWF l)
    (hH : ∀ p ∈ l, ∀ q ∈ l, p.2 = q.1 → q.2 ≤ p.2) :
    (collapsePortList l).Pairwise (fun a b => a.2 + 1 < b.1) := by
  unfold collapsePortList
  rw [List.pairwise_reverse]
  exact foldl_pushPort_gap (isort portLe l) [] l ⟨by simp [PWF], List.Pairwise.nil⟩
    (fun r hr => hw r (mem_isort.1 hr)) (by simp) (isort_sorted portLe_total l) (by simp)
    (fun p hp => mem_isort.1 hp) hH List.Pairwise.nil

/-- two members of a gap-separated list are equal or separated -/
theorem gap_cases {l : List (Nat × Nat)} (h : l.Pairwise (fun a b => a.2 + 1 < b.1)) {a b : Nat × Nat}
    (ha : a ∈ l) (hb : b ∈ l) : a = b ∨ a.2 + 1 < b.1 ∨ b.2 + 1 < a.1 := by
  induction l with
  | nil => cases ha
  | cons c cs ih =>
    have h' := List.pairwise_cons.1 h
    rcases List.mem_cons.1 ha with e1 | ha' <;> rcases List.mem_cons.1 hb with e2 | hb'
    · exact .inl (e1.trans e2.symm)
    · subst e1; exact .inr (.inl (h'.1 b hb'))
    · subst e2; exact .inr (.inr (h'.1 a ha'))
    · exact ih h'.2 ha' hb'

/-- an interval inside the union of gap-separated ranges lies in one of them -/
theorem gap_cover {l : List (Nat × Nat)} (h : l.Pairwise (fun a b => a.2 + 1 < b.1)) (hw : PWF l)
    {lo hi : Nat} (hlh : lo ≤ hi) (hc : ∀ x, lo ≤ x → x ≤ hi → PMem l x) :
    ∃ r ∈ l, r.1 ≤ lo ∧ hi ≤ r.2 := by
  obtain ⟨r, hr, h1, h2⟩ := hc lo (Nat.le_refl _) hlh
  refine ⟨r, hr, h1, ?_⟩
  refine Classical.byContradiction fun hn => ?_
  obtain ⟨q, hq, g1, g2⟩ := hc (r.2 + 1) (by omega) (by omega)
  rcases gap_cases h hr hq with e | e | e
  · subst e; omega
  · omega
  · have := hw r hr; omega

theorem gap_minimal {l m : List (Nat × Nat)} (h : l.Pairwise (fun a b => a.2 + 1 < b.1)) (hw : PWF l)
    (hm : PWF m) (hs : SamePorts l m) : l.length ≤ m.length := by
  have key : ∀ r ∈ m, ∃ q ∈ l, q.1 ≤ r.1 ∧ r.2 ≤ q.2 := fun r hr =>
    gap_cover h hw (hm r hr) (fun x h1 h2 => (hs x).2 ⟨r, hr, h1, h2⟩)
  let f : Nat × Nat → Nat × Nat := fun r => if hr : r ∈ m then (key r hr).choose else r
  have hn : l.Nodup := by
    refine List.Pairwise.imp_of_mem ?_ h
    intro a b ha _ hab e
    subst e
    have := hw a ha
    omega
  refine length_le_of_surj f m l hn ?_
  intro b hb
  obtain ⟨r, hr, h1, h2⟩ := (hs b.1).1 ⟨b, hb, Nat.le_refl _, hw b hb⟩
  refine ⟨r, hr, ?_⟩
  have hf : f r = (key r hr).choose := dif_pos hr
  obtain ⟨c1, c2, c3⟩ := (key r hr).choose_spec
  rw [hf]
  rcases gap_cases h c1 hb with e | e | e
  · exact e
  · omega
  · have := hw b hb; omega

theorem checkPort_sound {sup sub : List (Nat × Nat)} (hs : sup ≠ [])
    (h : checkPortIsContained sup sub = true) : sub ≠ [] ∧ ∀ x, PMem sub x → PMem sup x := by
  unfold checkPortIsContained at h
  rw [if_neg (by simpa using hs)] at h
  split at h
  · cases h
  next hne =>
    refine ⟨by simpa using hne, ?_⟩
    rintro x ⟨r, hr, h1, h2⟩
    have := List.all_eq_true.1 h r hr
    obtain ⟨q, hq, hh⟩ := List.any_eq_true.1 this
    simp only [Bool.and_eq_true, decide_eq_true_eq] at hh
    exact ⟨q, hq, by omega, by omega⟩

theorem checkPort_complete {sup sub : List (Nat × Nat)} (hg : sup.Pairwise (fun a b => a.2 + 1 < b.1))
    (hw : PWF sup) (hsub : PWF sub) (hne : sub ≠ []) (h : ∀ x, PMem sub x → PMem sup x) :
    checkPortIsContained sup sub = true := by
  unfold checkPortIsContained
  split
  · rfl
  · rw [if_neg (by simpa using hne)]
    refine List.all_eq_true.2 fun r hr => ?_
    obtain ⟨q, hq, h1, h2⟩ := gap_cover hg hw (hsub r hr) (fun x a b => h x ⟨r, hr, a, b⟩)
    refine List.any_eq_true.2 ⟨q, hq, ?_⟩
    simp only [Bool.and_eq_true, decide_eq_true_eq]
    omega

end Verif
