import Verif.Spec.Net
import Verif.Lemmas.Sort

namespace Verif
open Spec

/-! ### bit-level facts -/

theorem testBit_allOnes (v : Ver) (i : Nat) : (Net.allOnes v).testBit i = decide (i < v.bits) := by
  simp [Net.allOnes, Nat.testBit_two_pow_sub_one]

theorem testBit_netmask (n : Net) (i : Nat) (h : n.plen ≤ n.ver.bits) :
    n.netmask.testBit i = (decide (n.ver.bits - n.plen ≤ i) && decide (i < n.ver.bits)) := by
  unfold Net.netmask
  rw [Nat.testBit_xor, Nat.testBit_shiftRight, testBit_allOnes, testBit_allOnes]
  by_cases h1 : i < n.ver.bits <;> by_cases h2 : n.plen + i < n.ver.bits <;>
    by_cases h3 : n.ver.bits - n.plen ≤ i <;> simp [h1, h2, h3] <;> omega

theorem testBit_hostmask (n : Net) (i : Nat) (h : n.plen ≤ n.ver.bits) :
    n.hostmask.testBit i = decide (i < n.ver.bits - n.plen) := by
  unfold Net.hostmask
  rw [Nat.testBit_xor, testBit_netmask n i h, testBit_allOnes]
  by_cases h1 : i < n.ver.bits <;>
    by_cases h3 : n.ver.bits - n.plen ≤ i <;> simp [h1, h3] <;> omega

theorem hostmask_eq (n : Net) (h : n.plen ≤ n.ver.bits) :
    n.hostmask = 2 ^ (n.ver.bits - n.plen) - 1 := by
  apply Nat.eq_of_testBit_eq
  intro i
  rw [testBit_hostmask n i h, Nat.testBit_two_pow_sub_one]

theorem or_of_aligned {a k h : Nat} (ha : 2 ^ h ∣ a) (hk : k < 2 ^ h) : a ||| k = a + k := by
  obtain ⟨c, rfl⟩ := ha
  rw [Nat.two_pow_add_eq_or_of_lt hk]

theorem broadcast_eq {n : Net} (w : WF n) :
    n.broadcast = n.addr + (2 ^ (n.ver.bits - n.plen) - 1) := by
  unfold Net.broadcast
  rw [hostmask_eq n w.plen_le]
  exact or_of_aligned w.aligned (Nat.sub_one_lt (Nat.pos_iff_ne_zero.1 (Nat.two_pow_pos _)))

theorem broadcast_succ {n : Net} (w : WF n) :
    n.broadcast + 1 = n.addr + 2 ^ (n.ver.bits - n.plen) := by
  rw [broadcast_eq w]
  have := Nat.two_pow_pos (n.ver.bits - n.plen)
  omega

theorem and_netmask {n : Net} (h : n.plen ≤ n.ver.bits) {x : Nat} (hx : x < 2 ^ n.ver.bits) :
    x &&& n.netmask = 2 ^ (n.ver.bits - n.plen) * (x / 2 ^ (n.ver.bits - n.plen)) := by
  apply Nat.eq_of_testBit_eq
  intro i
  rw [Nat.testBit_and, testBit_netmask n i h, Nat.testBit_two_pow_mul, Nat.testBit_div_two_pow]
  by_cases h1 : n.ver.bits - n.plen ≤ i
  · by_cases h2 : i < n.ver.bits
    · simp [h1, h2]
    · have : x.testBit i = false := Nat.testBit_lt_two_pow
        (Nat.lt_of_lt_of_le hx (Nat.pow_le_pow_right (by decide) (by omega)))
      simp [h1, h2, this]
  · simp [h1]

theorem netmask_eq {n : Net} (h : n.plen ≤ n.ver.bits) :
    n.netmask + 2 ^ (n.ver.bits - n.plen) = 2 ^ n.ver.bits := by
  have h1 : (2 ^ n.ver.bits - 1) &&& n.netmask = n.netmask := by
    apply Nat.eq_of_testBit_eq
    intro i
    rw [Nat.testBit_and, testBit_netmask n i h, Nat.testBit_two_pow_sub_one]
    by_cases h2 : i < n.ver.bits <;> simp [h2]
  have hpos := Nat.two_pow_pos n.ver.bits
  have h2 := and_netmask h (x := 2 ^ n.ver.bits - 1) (by omega)
  rw [h1] at h2
  have hpp := Nat.two_pow_pos (n.ver.bits - n.plen)
  have hs : 2 ^ n.ver.bits = 2 ^ (n.ver.bits - n.plen) * 2 ^ n.plen := by
    rw [← Nat.pow_add]; congr 1; omega
  have hq : (2 ^ n.ver.bits - 1) / 2 ^ (n.ver.bits - n.plen) = 2 ^ n.plen - 1 := by
    have hp2 := Nat.two_pow_pos n.plen
    rw [hs]
    generalize 2 ^ n.plen = q at *
    generalize 2 ^ (n.ver.bits - n.plen) = p at *
    apply Nat.div_eq_of_lt_le
    · rw [Nat.sub_mul]
      rw [Nat.mul_comm q p]; omega
    · have : (q - 1 + 1) = q := by omega
      rw [this, Nat.mul_comm q p]
      have : 0 < p * q := Nat.mul_pos hpp hp2
      omega
  rw [hq] at h2
  have hp2 := Nat.two_pow_pos n.plen
  rw [h2, hs, Nat.mul_sub]
  have : 2 ^ (n.ver.bits - n.plen) * 1 ≤ 2 ^ (n.ver.bits - n.plen) * 2 ^ n.plen :=
    Nat.mul_le_mul_left _ hp2
  omega

theorem hasAddr_iff {n : Net} (w : WF n) {v : Ver} {x : Nat} (hx : x < 2 ^ v.bits) :
    n.hasAddr v x = true ↔ Mem n v x := by
  unfold Net.hasAddr Mem
  rw [Bool.and_eq_true, beq_iff_eq, beq_iff_eq]
  constructor
  · rintro ⟨rfl, h⟩
    rw [and_netmask w.plen_le hx] at h
    have hp := Nat.two_pow_pos (n.ver.bits - n.plen)
    have h1 := Nat.div_add_mod x (2 ^ (n.ver.bits - n.plen))
    have h2 := Nat.mod_lt x hp
    refine ⟨rfl, ?_, ?_⟩ <;> omega
  · rintro ⟨rfl, h1, h2⟩
    refine ⟨rfl, ?_⟩
    rw [and_netmask w.plen_le hx]
    obtain ⟨c, hc⟩ := w.aligned
    have hp := Nat.two_pow_pos (n.ver.bits - n.plen)
    have : x / 2 ^ (n.ver.bits - n.plen) = c := by
      apply Nat.div_eq_of_lt_le
      · rw [Nat.mul_comm]; omega
      · rw [Nat.add_mul, Nat.mul_comm c]; omega
    rw [this, hc]

/-! ### interval view -/

theorem mem_self {n : Net} : Mem n n.ver n.addr :=
  ⟨rfl, Nat.le_refl _, Nat.lt_add_of_pos_right (Nat.two_pow_pos _)⟩

theorem mem_lt {n : Net} (w : WF n) {v x} (h : Mem n v x) : x < 2 ^ v.bits := by
  obtain ⟨rfl, _, h2⟩ := h
  have := w.range
  omega

/-- `a.subnet_of(b)` is set inclusion. -/
theorem subnetOf_iff {a b : Net} (wa : WF a) (wb : WF b) :
    a.subnetOf b = true ↔ ∀ v x, Mem a v x → Mem b v x := by
  unfold Net.subnetOf
  rw [Bool.and_eq_true, Bool.and_eq_true, beq_iff_eq, decide_eq_true_eq, decide_eq_true_eq]
  have hA := broadcast_succ wa
  have hB := broadcast_succ wb
  have pa := Nat.two_pow_pos (a.ver.bits - a.plen)
  constructor
  · rintro ⟨⟨h1, h2⟩, h3⟩ v x ⟨rfl, h4, h5⟩
    exact ⟨h1.symm, by omega, by omega⟩
  · intro h
    have h1 := h a.ver a.addr mem_self
    have h2 := h a.ver a.broadcast ⟨rfl, by omega, by omega⟩
    exact ⟨⟨h1.1.symm, h1.2.1⟩, by have := h2.2.2; omega⟩

theorem two_pow_dvd {a b : Nat} (h : a ≤ b) : 2 ^ a ∣ 2 ^ b := Nat.pow_dvd_pow 2 h

/-- CIDR networks are laminar: intersecting networks are nested. -/
theorem nested_of_le {a b : Net} (wa : WF a) (wb : WF b) {v x} (ha : Mem a v x) (hb : Mem b v x)
    (hle : b.plen ≤ a.plen) : ∀ v x, Mem a v x → Mem b v x := by
  obtain ⟨rfl, a1, a2⟩ := ha
  obtain ⟨hv, b1, b2⟩ := hb
  have pl := wa.plen_le
  have hd : 2 ^ (a.ver.bits - a.plen) ∣ b.addr :=
    Nat.dvd_trans (two_pow_dvd (by rw [hv]; omega)) wb.aligned
  have hd2 : 2 ^ (a.ver.bits - a.plen) ∣ 2 ^ (b.ver.bits - b.plen) :=
    two_pow_dvd (by rw [hv]; omega)
  obtain ⟨ca, hca⟩ := wa.aligned
  obtain ⟨cb, hcb⟩ := hd
  obtain ⟨cs, hcs⟩ := hd2
  have pp := Nat.two_pow_pos (a.ver.bits - a.plen)
  rw [hca] at a1 a2
  rw [hcb] at b1 b2
  rw [hcs] at b2
  generalize hP : 2 ^ (a.ver.bits - a.plen) = P at *
  have k1 : cb ≤ ca := by
    rcases Nat.lt_or_ge ca cb with h | h
    · have : P * (ca + 1) ≤ P * cb := Nat.mul_le_mul_left _ h
      rw [Nat.mul_add] at this; omega
    · exact h
  have k2 : ca + 1 ≤ cb + cs := by
    rcases Nat.lt_or_ge ca (cb + cs) with h | h
    · exact h
    · have : P * (cb + cs) ≤ P * ca := Nat.mul_le_mul_left _ h
      rw [Nat.mul_add] at this; omega
  have k1' : P * cb ≤ P * ca := Nat.mul_le_mul_left _ k1
  have k2' : P * (ca + 1) ≤ P * (cb + cs) := Nat.mul_le_mul_left _ k2
  rw [Nat.mul_add, Nat.mul_add] at k2'
  rintro v y ⟨rfl, y1, y2⟩
  refine ⟨hv, by omega, by rw [hcb, hcs]; omega⟩

theorem nested_or {a b : Net} (wa : WF a) (wb : WF b) {v x} (ha : Mem a v x) (hb : Mem b v x) :
    (∀ v x, Mem a v x → Mem b v x) ∨ (∀ v x, Mem b v x → Mem a v x) := by
  rcases Nat.le_total b.plen a.plen with h | h
  · exact .inl (nested_of_le wa wb ha hb h)
  · exact .inr (nested_of_le wb wa hb ha h)

/-- inclusion makes the prefix longer -/
theorem plen_le_of_sub {a b : Net} (wa : WF a) (wb : WF b) (h : ∀ v x, Mem a v x → Mem b v x) :
    b.ver = a.ver ∧ b.addr ≤ a.addr ∧ b.plen ≤ a.plen ∧
      a.addr + 2 ^ (a.ver.bits - a.plen) ≤ b.addr + 2 ^ (b.ver.bits - b.plen) := by
  have pa := Nat.two_pow_pos (a.ver.bits - a.plen)
  obtain ⟨h1, h2, _⟩ := h a.ver a.addr mem_self
  obtain ⟨_, h4, h5⟩ := h a.ver (a.addr + 2 ^ (a.ver.bits - a.plen) - 1) ⟨rfl, by omega, by omega⟩
  refine ⟨h1, h2, ?_, by omega⟩
  have h6 : 2 ^ (a.ver.bits - a.plen) ≤ 2 ^ (b.ver.bits - b.plen) := by omega
  have h7 := (Nat.pow_le_pow_iff_right (by decide : 1 < 2)).1 h6
  have := wa.plen_le
  have := wb.plen_le
  rw [h1] at h7 this
  omega

/-- equal denotation means equal block -/
theorem block_eq_of_sub {a b : Net} (wa : WF a) (wb : WF b) (h : ∀ v x, Mem a v x → Mem b v x)
    (h' : ∀ v x, Mem b v x → Mem a v x) : block a = block b := by
  obtain ⟨h1, h2, h3, _⟩ := plen_le_of_sub wa wb h
  obtain ⟨_, h5, h6, _⟩ := plen_le_of_sub wb wa h'
  unfold block
  rw [h1, Nat.le_antisymm h5 h2, Nat.le_antisymm h6 h3]

theorem mem_congr_block {a b : Net} (h : block a = block b) (v x) : Mem a v x ↔ Mem b v x := by
  unfold block at h
  injection h with h1 h2
  injection h2 with h2 h3
  unfold Mem
  rw [h1, h2, h3]

theorem wf_congr_block {a b : Net} (h : block a = block b) : WF a ↔ WF b := by
  unfold block at h
  injection h with h1 h2
  injection h2 with h2 h3
  constructor <;> rintro ⟨p1, p2, p3⟩ <;> constructor <;> simp_all

/-- `a.overlaps(b)` is non-empty intersection. -/
theorem overlaps_iff {a b : Net} (wa : WF a) (wb : WF b) :
    a.overlaps b = true ↔ ∃ v x, Mem a v x ∧ Mem b v x := by
  have pa := Nat.two_pow_pos (a.ver.bits - a.plen)
  have pb := Nat.two_pow_pos (b.ver.bits - b.plen)
  have ha := broadcast_succ wa
  have hb := broadcast_succ wb
  have ra := wa.range
  have rb := wb.range
  unfold Net.overlaps
  rw [Bool.or_eq_true, Bool.or_eq_true, Bool.or_eq_true,
    hasAddr_iff wb (by omega), hasAddr_iff wb (by omega),
    hasAddr_iff wa (by omega), hasAddr_iff wa (by omega)]
  constructor
  · rintro (((h | h) | h) | h)
    · exact ⟨_, _, mem_self, h⟩
    · exact ⟨_, a.broadcast, ⟨rfl, by omega, by omega⟩, h⟩
    · exact ⟨_, _, h, mem_self⟩
    · exact ⟨_, b.broadcast, h, ⟨rfl, by omega, by omega⟩⟩
  · rintro ⟨v, x, h1, h2⟩
    rcases nested_or wa wb h1 h2 with h | h
    · exact .inl (.inl (.inl (h _ _ mem_self)))
    · exact .inl (.inr (h _ _ mem_self))

/-! ### netmask order is prefix-length order -/

theorem netmask_lt_iff {a b : Net} (wa : WF a) (wb : WF b) (hv : a.ver = b.ver) :
    a.netmask < b.netmask ↔ a.plen < b.plen := by
  have h1 := netmask_eq wa.plen_le
  have h2 := netmask_eq wb.plen_le
  have p1 := wa.plen_le
  have p2 := wb.plen_le
  rw [hv] at h1 p1
  have h3 : a.netmask < b.netmask ↔ 2 ^ (b.ver.bits - b.plen) < 2 ^ (b.ver.bits - a.plen) := by
    omega
  rw [h3, Nat.pow_lt_pow_iff_right (by decide)]
  omega

theorem netmask_inj {a b : Net} (wa : WF a) (wb : WF b) (hv : a.ver = b.ver) :
    a.netmask = b.netmask ↔ a.plen = b.plen := by
  have h1 := netmask_lt_iff wa wb hv
  have h2 := netmask_lt_iff wb wa hv.symm
  omega

theorem Ver.num_inj {a b : Ver} : a.num = b.num ↔ a = b := by
  cases a <;> cases b <;> simp [Ver.num]

theorem keyLt_iff {a b : Net} (wa : WF a) (wb : WF b) : a.keyLt b = true ↔ KeyLt a b := by
  unfold Net.keyLt KeyLt
  simp only [Bool.or_eq_true, Bool.and_eq_true, decide_eq_true_eq, beq_iff_eq]
  rw [Ver.num_inj]
  constructor
  · rintro (h | ⟨h, h2⟩)
    · exact .inl h
    · refine .inr ⟨h, ?_⟩
      rw [netmask_lt_iff wa wb h] at h2
      exact h2
  · rintro (h | ⟨h, h2⟩)
    · exact .inl h
    · refine .inr ⟨h, ?_⟩
      rw [netmask_lt_iff wa wb h]
      exact h2

theorem eqv_iff {a b : Net} (wa : WF a) (wb : WF b) : a.eqv b = true ↔ block a = block b := by
  unfold Net.eqv block
  simp only [Bool.and_eq_true, beq_iff_eq, Prod.mk.injEq]
  constructor
  · rintro ⟨⟨h1, h2⟩, h3⟩
    exact ⟨h1, h2, (netmask_inj wa wb h1).1 h3⟩
  · rintro ⟨h1, h2, h3⟩
    exact ⟨⟨h1, h2⟩, (netmask_inj wa wb h1).2 h3⟩

theorem keyLe_total : TotalPre Net.keyLe where
  total a b := by
    unfold Net.keyLe Net.keyLt
    simp only [Bool.not_eq_true', Bool.or_eq_false_iff, Bool.and_eq_false_iff, decide_eq_false_iff_not,
      beq_eq_false_iff_ne]
    omega
  trans a b c := by
    unfold Net.keyLe Net.keyLt
    simp only [Bool.not_eq_true', Bool.or_eq_false_iff, Bool.and_eq_false_iff, decide_eq_false_iff_not,
      beq_eq_false_iff_ne]
    omega

theorem keyLe_iff {a b : Net} (wa : WF a) (wb : WF b) :
    a.keyLe b = true ↔ KeyLt a b ∨ block a = block b := by
  unfold Net.keyLe
  rw [Bool.not_eq_true', ← Bool.not_eq_true, keyLt_iff wb wa]
  unfold KeyLt block
  simp only [Prod.mk.injEq]
  have h1 := @Ver.num_inj a.ver b.ver
  constructor
  · intro h
    by_cases hv : a.ver = b.ver
    · simp_all; omega
    · have : a.ver.num ≠ b.ver.num := fun e => hv (h1.1 e)
      omega
  · rintro (h | ⟨h, h2, h3⟩)
    · rcases h with h | ⟨h, h2⟩
      · have : b.ver ≠ a.ver := by intro e; rw [e] at h; omega
        simp [this]; omega
      · simp [h]; omega
    · simp [h, h2, h3]

end Verif
