import Verif.Lemmas.Net
import Verif.Model.Nacaddr

namespace Verif
open Spec Nacaddr

/-! ### denotation of lists -/

@[simp] theorem den_nil (v x) : Den [] v x ↔ False := by simp [Den]
theorem den_cons (n : Net) (l v x) : Den (n :: l) v x ↔ Mem n v x ∨ Den l v x := by
  simp [Den]
theorem den_append (l m : List Net) (v x) : Den (l ++ m) v x ↔ Den l v x ∨ Den m v x := by
  simp [Den, or_and_right, exists_or]
theorem den_perm {l m : List Net} (h : l.Perm m) : SameDen l m := by
  intro v x; simp [Den, h.mem_iff]
theorem den_reverse (l : List Net) (v x) : Den l.reverse v x ↔ Den l v x := by simp [Den]
theorem den_flatten (ls : List (List Net)) (v x) :
    Den ls.flatten v x ↔ ∃ l ∈ ls, Den l v x := by
  simp only [Den, List.mem_flatten]
  constructor
  · rintro ⟨n, ⟨l, hl, hn⟩, h⟩; exact ⟨l, hl, n, hn, h⟩
  · rintro ⟨l, hl, n, hn, h⟩; exact ⟨n, ⟨l, hl, hn⟩, h⟩

theorem Spec.SameDen.refl (l : List Net) : SameDen l l := fun _ _ => Iff.rfl
theorem Spec.SameDen.symm {l m : List Net} (h : SameDen l m) : SameDen m l := fun v x => (h v x).symm
theorem Spec.SameDen.trans {l m k : List Net} (h : SameDen l m) (h' : SameDen m k) : SameDen l k :=
  fun v x => (h v x).trans (h' v x)

theorem sameDen_of_blocks {l m : List Net} (h : l.map block = m.map block) : SameDen l m := by
  intro v x
  have key : ∀ {l m : List Net}, l.map block = m.map block → Den l v x → Den m v x := by
    rintro l m h ⟨n, hn, hx⟩
    have : block n ∈ m.map block := h ▸ List.mem_map_of_mem hn
    obtain ⟨k, hk, hb⟩ := List.mem_map.1 this
    exact ⟨k, hk, (mem_congr_block hb v x).2 hx⟩
  exact ⟨key h, key h.symm⟩

/-! ### comments and supernets -/

theorem block_addComment (n : Net) (c : Str) : block (n.addComment c) = block n := by
  unfold Net.addComment block; split <;> (try split) <;> rfl

theorem ver_addComment (n : Net) (c : Str) : (n.addComment c).ver = n.ver := by
  unfold Net.addComment; split <;> (try split) <;> rfl
theorem addr_addComment (n : Net) (c : Str) : (n.addComment c).addr = n.addr := by
  unfold Net.addComment; split <;> (try split) <;> rfl
theorem plen_addComment (n : Net) (c : Str) : (n.addComment c).plen = n.plen := by
  unfold Net.addComment; split <;> (try split) <;> rfl
theorem netmask_addComment (n : Net) (c : Str) : (n.addComment c).netmask = n.netmask := by
  unfold Net.addComment; split <;> (try split) <;> rfl

theorem wf_addComment {n : Net} (c : Str) : WF (n.addComment c) ↔ WF n :=
  wf_congr_block (block_addComment n c)
theorem mem_addComment (n : Net) (c : Str) (v x) : Mem (n.addComment c) v x ↔ Mem n v x :=
  mem_congr_block (block_addComment n c) v x

theorem testBit_shl1 (m i : Nat) : (m <<< 1).testBit i = (decide (1 ≤ i) && m.testBit (i - 1)) := by
  rw [Nat.testBit_shiftLeft]

theorem shl_and_iff {p : Net} (w : WF p) (hp : p.plen ≠ 0) :
    (p.netmask <<< 1) &&& p.addr = p.addr ↔ 2 ^ (p.ver.bits - p.plen + 1) ∣ p.addr := by
  have hb := w.plen_le
  have hlt : p.addr < 2 ^ p.ver.bits := by
    have := w.range; have := Nat.two_pow_pos (p.ver.bits - p.plen); omega
  constructor
  · intro h
    apply Nat.dvd_of_mod_eq_zero
    apply Nat.eq_of_testBit_eq
    intro i
    rw [Nat.testBit_mod_two_pow, Nat.zero_testBit]
    by_cases hi : i < p.ver.bits - p.plen + 1
    · have : p.addr.testBit i = false := by
        rw [← h, Nat.testBit_and, testBit_shl1, testBit_netmask p _ hb]
        have : ¬ (1 ≤ i ∧ p.ver.bits - p.plen ≤ i - 1) := by omega
        by_cases h1 : 1 ≤ i
        · have h2 : ¬ p.ver.bits - p.plen ≤ i - 1 := fun h => this ⟨h1, h⟩
          simp [h2]
        · simp [h1]
      simp [this]
    · simp [hi]
  · intro h
    apply Nat.eq_of_testBit_eq
    intro i
    rw [Nat.testBit_and, testBit_shl1, testBit_netmask p _ hb]
    by_cases hi : p.addr.testBit i = true
    · have h1 : p.ver.bits - p.plen + 1 ≤ i := by
        rcases Nat.lt_or_ge i (p.ver.bits - p.plen + 1) with h' | h'
        · obtain ⟨c, hc⟩ := h
          rw [hc, Nat.testBit_two_pow_mul] at hi
          simp at hi; omega
        · exact h'
      have h2 : i < p.ver.bits := by
        rcases Nat.lt_or_ge i p.ver.bits with h' | h'
        · exact h'
        · have := Nat.testBit_lt_two_pow (Nat.lt_of_lt_of_le hlt
            (Nat.pow_le_pow_right (by decide : 2 > 0) h'))
          rw [this] at hi; exact absurd hi (by decide)
      have a1 : 1 ≤ i := by omega
      have a2 : p.ver.bits - p.plen ≤ i - 1 := by omega
      have a3 : i - 1 < p.ver.bits := by omega
      simp [a1, a2, a3]
    · simp [Bool.not_eq_true] at hi
      simp [hi]

theorem mergeable_iff {p a : Net} (wp : WF p) (wa : WF a) :
    mergeable p a = true ↔ Siblings p a := by
  unfold mergeable Siblings
  simp only [Bool.and_eq_true, beq_iff_eq]
  have hb := broadcast_succ wp
  constructor
  · rintro ⟨⟨⟨h1, h2⟩, h3⟩, h4⟩
    have hp : p.plen ≠ 0 := by
      intro h0
      have r := wa.range
      rw [← h3, hb, h0, ← h1] at r
      have := Nat.two_pow_pos (p.ver.bits - a.plen)
      simp at r
      omega
    exact ⟨h1, h2, hp, by omega, (shl_and_iff wp hp).1 h4⟩
  · rintro ⟨h1, h2, h3, h4, h5⟩
    exact ⟨⟨⟨h1, h2⟩, by omega⟩, (shl_and_iff wp h3).2 h5⟩

theorem supernet_block {p a : Net} (wp : WF p) (h : Siblings p a) :
    block p.supernet = (p.ver, p.addr, p.plen - 1) := by
  obtain ⟨_, _, h3, _, h5⟩ := h
  unfold Net.supernet block
  rw [if_neg h3]
  simp only [Prod.mk.injEq, true_and, and_true]
  rw [Nat.and_comm]
  exact (shl_and_iff wp h3).2 h5

theorem supernet_fields {p a : Net} (wp : WF p) (h : Siblings p a) :
    p.supernet.ver = p.ver ∧ p.supernet.addr = p.addr ∧ p.supernet.plen = p.plen - 1 := by
  have := supernet_block wp h
  unfold block at this
  simpa using this

theorem pow_parent {p : Net} (hp : p.plen ≠ 0) (hb : p.plen ≤ p.ver.bits) :
    2 ^ (p.ver.bits - (p.plen - 1)) = 2 * 2 ^ (p.ver.bits - p.plen) := by
  have : p.ver.bits - (p.plen - 1) = (p.ver.bits - p.plen) + 1 := by omega
  rw [this, Nat.pow_succ]; omega

theorem supernet_wf {p a : Net} (wp : WF p) (wa : WF a) (h : Siblings p a) : WF p.supernet := by
  obtain ⟨f1, f2, f3⟩ := supernet_fields wp h
  obtain ⟨h1, h2, h3, h4, h5⟩ := h
  have hp := pow_parent h3 wp.plen_le
  have pl := wp.plen_le
  constructor
  · rw [f1, f3]; omega
  · rw [f1, f2, f3]
    have : p.ver.bits - (p.plen - 1) = p.ver.bits - p.plen + 1 := by omega
    rw [this]; exact h5
  · rw [f1, f2, f3, hp]
    have := wa.range
    rw [h4, ← h1, ← h2] at this
    omega

theorem mem_supernet {p a : Net} (wp : WF p) (h : Siblings p a) (v x) :
    Mem p.supernet v x ↔ Mem p v x ∨ Mem a v x := by
  obtain ⟨f1, f2, f3⟩ := supernet_fields wp h
  obtain ⟨h1, h2, h3, h4, h5⟩ := h
  have hp := pow_parent h3 wp.plen_le
  unfold Mem
  rw [f1, f2, f3, hp, ← h1, ← h2, h4]
  constructor
  · rintro ⟨e, k1, k2⟩
    rcases Nat.lt_or_ge x (p.addr + 2 ^ (p.ver.bits - p.plen)) with h | h
    · exact .inl ⟨e, k1, h⟩
    · exact .inr ⟨e, h, by omega⟩
  · rintro (⟨e, k1, k2⟩ | ⟨e, k1, k2⟩) <;> exact ⟨e, by omega, by omega⟩

theorem siblings_addComment {p a : Net} (c : Str) : Siblings (p.addComment c) a ↔ Siblings p a := by
  unfold Siblings
  rw [ver_addComment, plen_addComment, addr_addComment]

/-! ### the collapse loop preserves the denotation (any complements) -/

theorem push_spec (comps : List Net) : ∀ (ret : List Net) (a : Net) (r : List Net),
    (∀ n ∈ ret, WF n) → WF a → push comps ret a = .ok r →
    (∀ n ∈ r, WF n) ∧ SameDen r (a :: ret) := by
  intro ret
  induction ret with
  | nil =>
    intro a r _ wa h
    simp only [push, Except.ok.injEq] at h
    subst h
    exact ⟨by simpa using wa, SameDen.refl _⟩
  | cons p rest ih =>
    intro a r hw wa h
    have wp := hw p (List.mem_cons_self ..)
    have hrest : ∀ n ∈ rest, WF n := fun n hn => hw n (List.mem_cons_of_mem _ hn)
    have same : (∀ n ∈ a :: p :: rest, WF n) := by
      intro n hn
      rcases List.mem_cons.1 hn with rfl | hn
      · exact wa
      · exact hw n hn
    simp only [push] at h
    split at h
    · cases h
    · cases h; exact ⟨same, SameDen.refl _⟩
    · split at h
      next hs =>
        cases h
        have hsub := (subnetOf_iff wa wp).1 hs
        refine ⟨?_, ?_⟩
        · intro n hn
          rcases List.mem_cons.1 hn with rfl | hn
          · exact (wf_addComment _).2 wp
          · exact hrest n hn
        · intro v x
          simp only [den_cons, mem_addComment]
          have := hsub v x
          constructor
          · rintro (h | h)
            · exact .inr (.inl h)
            · exact .inr (.inr h)
          · rintro (h | h | h)
            · exact .inl (this h)
            · exact .inl h
            · exact .inr h
      next hs =>
        split at h
        next hm =>
          have sib := (mergeable_iff wp wa).1 hm
          have sib' := (siblings_addComment a.text).2 sib
          have wp' := (wf_addComment a.text).2 wp
          obtain ⟨r1, r2⟩ := ih _ r hrest (supernet_wf wp' wa sib') h
          refine ⟨r1, r2.trans ?_⟩
          intro v x
          simp only [den_cons, mem_supernet wp' sib', mem_addComment]
          constructor
          · rintro ((h | h) | h)
            · exact .inr (.inl h)
            · exact .inl h
            · exact .inr (.inr h)
          · rintro (h | h | h)
            · exact .inl (.inr h)
            · exact .inl (.inl h)
            · exact .inr h
        next => cases h; exact ⟨same, SameDen.refl _⟩

theorem collapseLoop_spec (comps : List Net) : ∀ (l ret r : List Net),
    (∀ n ∈ ret, WF n) → (∀ n ∈ l, WF n) → collapseLoop comps ret l = .ok r →
    (∀ n ∈ r, WF n) ∧ SameDen r (l ++ ret) := by
  intro l
  induction l with
  | nil =>
    intro ret r hr _ h
    simp only [collapseLoop, Except.ok.injEq] at h
    subst h
    exact ⟨hr, SameDen.refl _⟩
  | cons a as ih =>
    intro ret r hr hl h
    simp only [collapseLoop] at h
    split at h
    · cases h
    next ret' he =>
      obtain ⟨w', d'⟩ := push_spec comps ret a ret' hr (hl a (List.mem_cons_self ..)) he
      obtain ⟨w, d⟩ := ih ret' r w' (fun n hn => hl n (List.mem_cons_of_mem _ hn)) h
      refine ⟨w, ?_⟩
      intro v x
      have h1 := d v x
      have h2 := d' v x
      simp only [den_append, den_cons, List.cons_append] at *
      rw [h1, h2, or_left_comm]

theorem collapseAddrList_spec (l comps r : List Net) (hl : ∀ n ∈ l, WF n)
    (h : collapseAddrList l comps = .ok r) : (∀ n ∈ r, WF n) ∧ SameDen r l := by
  unfold collapseAddrList at h
  split at h
  · cases h
  next ret he =>
    cases h
    have := collapseLoop_spec _ _ _ _ (by simp) (by
      intro n hn; exact hl n (mem_isort.1 hn)) he
    refine ⟨fun n hn => this.1 n (by simpa using hn), ?_⟩
    intro v x
    rw [den_reverse, this.2 v x, List.append_nil]
    exact den_perm (isort_perm _ _) v x

/-! ### no complements: nothing raises, `collapse` is the same function -/

theorem keptComps_nil (l : List Net) : keptComps l [] = [] := rfl

theorem push_nil (ret : List Net) (a : Net) : push [] ret a = .ok (push0 ret a) := by
  induction ret generalizing a with
  | nil => rfl
  | cons p rest ih =>
    simp only [push, push0, compsAt, List.filter_nil, safeToMerge]
    split
    · rfl
    · split
      · exact ih _
      · rfl

theorem collapseLoop_nil (ret l : List Net) :
    collapseLoop [] ret l = .ok (l.foldl push0 ret) := by
  induction l generalizing ret with
  | nil => rfl
  | cons a as ih => simp only [collapseLoop, push_nil, List.foldl_cons, ih]

theorem collapse_eq (l : List Net) : collapseAddrList l [] = .ok (collapse l) := by
  unfold collapseAddrList collapse
  rw [keptComps_nil, collapseLoop_nil]

theorem collapse_spec (l : List Net) (hl : ∀ n ∈ l, WF n) :
    (∀ n ∈ collapse l, WF n) ∧ SameDen (collapse l) l :=
  collapseAddrList_spec l [] _ hl (collapse_eq l)

end Verif
