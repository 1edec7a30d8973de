import Verif.Lemmas.Canonical

namespace Verif
open Spec Nacaddr

/-! ### trailing zeros -/

theorem exists_pow_odd : ∀ (n : Nat), n ≠ 0 → ∃ t c, n = 2 ^ t * (2 * c + 1) := by
  intro n
  induction n using Nat.strongRecOn with
  | _ n ih =>
    intro hn
    rcases Nat.mod_two_eq_zero_or_one n with h | h
    · obtain ⟨t, c, e⟩ := ih (n / 2) (by omega) (by omega)
      refine ⟨t + 1, c, ?_⟩
      rw [Nat.pow_succ, Nat.mul_comm (2 ^ t) 2, Nat.mul_assoc, ← e]; omega
    · exact ⟨0, n / 2, by simp; omega⟩

theorem lowmask_eq (t c : Nat) :
    ((2 ^ t * (2 * c + 1) - 1) ^^^ ((2 ^ t * (2 * c + 1) - 1) &&& (2 ^ t * (2 * c + 1)))) = 2 ^ t - 1 := by
  have hp := Nat.two_pow_pos t
  have e1 : 2 ^ t * (2 * c + 1) - 1 = 2 ^ t * (2 * c) + (2 ^ t - 1) := by
    rw [Nat.mul_add]; omega
  apply Nat.eq_of_testBit_eq
  intro i
  rw [Nat.testBit_xor, Nat.testBit_and, e1, Nat.testBit_two_pow_mul_add _ (by omega),
    Nat.testBit_two_pow_mul, Nat.testBit_two_pow_sub_one]
  by_cases h : i < t
  · have : ¬ t ≤ i := by omega
    simp [h, this]
  · have h' : t ≤ i := by omega
    simp only [h, h', if_false, decide_true, Bool.true_and, decide_false]
    by_cases hi : i = t
    · subst hi
      simp
    · have e : i - t = (i - t - 1) + 1 := by omega
      rw [e, Nat.testBit_succ, Nat.testBit_succ]
      have e1 : 2 * c / 2 = c := by omega
      have e2 : (2 * c + 1) / 2 = c := by omega
      rw [e1, e2]
      cases c.testBit (i - t - 1) <;> rfl

theorem bitLength_two_pow_sub_one (t : Nat) : bitLength (2 ^ t - 1) = t := by
  unfold bitLength
  rcases Nat.eq_zero_or_pos t with rfl | h
  · simp
  · have h2 : 2 ≤ 2 ^ t := by
      have := Nat.pow_le_pow_right (n := 2) (by decide) h
      simpa using this
    rw [if_neg (by omega)]
    have : Nat.log2 (2 ^ t - 1) = t - 1 := by
      rw [Nat.log2_eq_iff (by omega)]
      have e : 2 ^ t = 2 * 2 ^ (t - 1) := by
        have : t = (t - 1) + 1 := by omega
        rw [this, Nat.pow_succ]; simp; omega
      constructor
      · have := Nat.two_pow_pos (t - 1); omega
      · have : t - 1 + 1 = t := by omega
        rw [this]; omega
    omega

theorem countRightZeros_dvd (n b k : Nat) (hk : k ≤ countRightZeros n b) : 2 ^ k ∣ n := by
  unfold countRightZeros at hk
  split at hk
  next h => subst h; exact Nat.dvd_zero _
  next h =>
    obtain ⟨t, c, e⟩ := exists_pow_odd n h
    have : bitLength ((n - 1) ^^^ ((n - 1) &&& n)) = t := by
      rw [e, lowmask_eq, bitLength_two_pow_sub_one]
    rw [this] at hk
    rw [e]
    exact Nat.dvd_trans (two_pow_dvd (by omega)) (Nat.dvd_mul_right _ _)

theorem countRightZeros_le (n b : Nat) : countRightZeros n b ≤ b := by
  unfold countRightZeros; split <;> omega

theorem pow_bitLength_le (m : Nat) (hm : m ≠ 0) : 2 ^ (bitLength m - 1) ≤ m := by
  unfold bitLength
  rw [if_neg hm]
  exact Nat.log2_self_le hm

/-! ### summarize_address_range -/

structure RangeSpec (v : Ver) (first last : Nat) (r : List Net) : Prop where
  wf : ∀ n ∈ r, WF n
  den : ∀ w x, Den r w x ↔ w = v ∧ first ≤ x ∧ x ≤ last
  sorted : r.Pairwise EndsBefore
  sizes : (r.map size).sum = last + 1 - first
  fresh : ∀ n ∈ r, n.text = [] ∧ n.token = "" ∧ n.parent = ""

theorem summarizeLoop_spec (v : Ver) : ∀ (fuel first last : Nat), last < 2 ^ v.bits →
    last + 1 - first ≤ fuel → RangeSpec v first last (summarizeLoop v fuel first last) := by
  intro fuel
  induction fuel with
  | zero =>
    intro first last _ hf
    simp only [summarizeLoop]
    refine ⟨by simp, ?_, List.Pairwise.nil, by simp; omega, by simp⟩
    intro w x; simp; omega
  | succ fuel ih =>
    intro first last hl hf
    unfold summarizeLoop
    split
    next hle =>
      simp only []
      generalize hn : min (countRightZeros first v.bits) (bitLength (last - first + 1) - 1) = nb
      have hnb1 : nb ≤ countRightZeros first v.bits := by omega
      have hnb2 : nb ≤ bitLength (last - first + 1) - 1 := by omega
      have hnbb : nb ≤ v.bits := Nat.le_trans hnb1 (countRightZeros_le _ _)
      have hdvd := countRightZeros_dvd first v.bits nb hnb1
      have hpw : 2 ^ nb ≤ last - first + 1 :=
        Nat.le_trans (Nat.pow_le_pow_right (by decide) hnb2)
          (pow_bitLength_le _ (by omega))
      have hpos := Nat.two_pow_pos nb
      have hsub : v.bits - (v.bits - nb) = nb := by omega
      rw [Nat.one_shiftLeft]
      have wf : WF { ver := v, addr := first, plen := v.bits - nb } := by
        refine ⟨by simp, ?_, ?_⟩
        · simp only [hsub]; exact hdvd
        · simp only [hsub]; omega
      have hmem : ∀ w x, Mem { ver := v, addr := first, plen := v.bits - nb } w x ↔
          w = v ∧ first ≤ x ∧ x < first + 2 ^ nb := by
        intro w x; simp only [Mem, hsub, eq_comm]
      split
      next hbrk =>
        have : 2 ^ v.bits = first + 2 ^ nb := by
          have := Nat.two_pow_pos v.bits
          unfold Net.allOnes at hbrk
          omega
        refine ⟨by simpa using wf, ?_, by simp, by simp [size, hsub]; omega, by simp⟩
        intro w x
        rw [den_cons, hmem]; simp; omega
      next hbrk =>
        have h := ih (first + 2 ^ nb) last hl (by omega)
        refine ⟨?_, ?_, ?_, ?_, ?_⟩
        · intro n hn
          rcases List.mem_cons.1 hn with rfl | hn
          · exact wf
          · exact h.wf n hn
        · intro w x
          rw [den_cons, hmem, h.den]
          constructor
          · rintro (⟨a, b, c⟩ | ⟨a, b, c⟩) <;> exact ⟨a, by omega, by omega⟩
          · rintro ⟨a, b, c⟩
            rcases Nat.lt_or_ge x (first + 2 ^ nb) with h | h
            · exact .inl ⟨a, b, h⟩
            · exact .inr ⟨a, h, c⟩
        · refine List.pairwise_cons.2 ⟨?_, h.sorted⟩
          intro b hb
          have := (h.den b.ver b.addr).1 ⟨b, hb, mem_self⟩
          refine .inr ⟨this.1.symm, ?_⟩
          simp only [hsub]; omega
        · simp only [List.map_cons, List.sum_cons, h.sizes, size, hsub]; omega
        · intro n hn
          rcases List.mem_cons.1 hn with rfl | hn
          · exact ⟨rfl, rfl, rfl⟩
          · exact h.fresh n hn
    next hle =>
      refine ⟨by simp, ?_, List.Pairwise.nil, by simp; omega, by simp⟩
      intro w x; simp; omega

theorem summarizeRange_spec (v : Ver) (first last : Nat) (h : first ≤ last) (hl : last < 2 ^ v.bits) :
    ∃ r, summarizeRange v first last = .ok r ∧ RangeSpec v first last r := by
  refine ⟨_, ?_, summarizeLoop_spec v (last + 1 - first) first last hl (Nat.le_refl _)⟩
  unfold summarizeRange
  rw [if_neg (by omega)]

/-! ### exclude_address -/

/-- specification of a list of pieces `s \ e` -/
structure DiffSpec (s e : Net) (r : List Net) : Prop where
  wf : ∀ n ∈ r, WF n
  den : ∀ v x, Den r v x ↔ Mem s v x ∧ ¬ Mem e v x
  sorted : r.Pairwise EndsBefore
  sizes : (r.map size).sum + size e = size s

theorem excludeAddress_spec {s e : Net} (ws : WF s) (we : WF e)
    (hsub : ∀ v x, Mem e v x → Mem s v x) :
    ∃ r, excludeAddress s e = .ok r ∧ DiffSpec s e r ∧
      (∀ n ∈ r, n.text = [] ∧ n.token = "" ∧ n.parent = "") := by
  obtain ⟨q1, q2, q3, q4⟩ := plen_le_of_sub we ws hsub
  have bs := broadcast_succ ws
  have be := broadcast_succ we
  have rs := ws.range
  have re := we.range
  have ps := Nat.two_pow_pos (s.ver.bits - s.plen)
  have pe := Nat.two_pow_pos (e.ver.bits - e.plen)
  have hso : e.subnetOf s = true := (subnetOf_iff we ws).2 hsub
  have me : ∀ v x, Mem e v x ↔ v = s.ver ∧ e.addr ≤ x ∧ x < e.addr + 2 ^ (e.ver.bits - e.plen) := by
    intro v x; unfold Mem; rw [← q1, @eq_comm _ s.ver v]
  have ms : ∀ v x, Mem s v x ↔ v = s.ver ∧ s.addr ≤ x ∧ x < s.addr + 2 ^ (s.ver.bits - s.plen) := by
    intro v x; unfold Mem; rw [@eq_comm _ s.ver v]
  unfold excludeAddress
  rw [if_neg (by simp [q1]), if_neg (by simp [hso])]
  split
  next heq =>
    have hb := (eqv_iff we ws).1 heq
    refine ⟨[], rfl, ⟨by simp, ?_, List.Pairwise.nil, ?_⟩, by simp⟩
    · intro v x; rw [mem_congr_block hb]; simp
    · simp only [block, Prod.mk.injEq] at hb
      simp [size, hb.1, hb.2.2]
  next hne =>
    have hne' : ¬ (e.addr = s.addr ∧ e.addr + 2 ^ (e.ver.bits - e.plen) = s.addr + 2 ^ (s.ver.bits - s.plen)) := by
      rintro ⟨h1, h2⟩
      apply hne
      rw [eqv_iff we ws]
      refine block_eq_of_sub we ws hsub ?_
      intro v x h
      rw [ms] at h; rw [me]
      exact ⟨h.1, by omega, by omega⟩
    split
    next h1 =>
      obtain ⟨r, hr, sp⟩ := summarizeRange_spec s.ver (e.broadcast + 1) s.broadcast (by omega) (by omega)
      refine ⟨r, hr, ⟨sp.wf, ?_, sp.sorted, ?_⟩, sp.fresh⟩
      · intro v x
        rw [sp.den, me, ms]
        constructor
        · rintro ⟨a, b, c⟩; exact ⟨⟨a, by omega, by omega⟩, by omega⟩
        · rintro ⟨⟨a, b, c⟩, d⟩
          have : ¬ (e.addr ≤ x ∧ x < e.addr + 2 ^ (e.ver.bits - e.plen)) := fun h => d ⟨a, h⟩
          exact ⟨a, by omega, by omega⟩
      · rw [sp.sizes]; unfold size; omega
    next h1 =>
      split
      next h2 =>
        obtain ⟨r, hr, sp⟩ := summarizeRange_spec s.ver s.addr (e.addr - 1) (by omega) (by omega)
        refine ⟨r, hr, ⟨sp.wf, ?_, sp.sorted, ?_⟩, sp.fresh⟩
        · intro v x
          rw [sp.den, me, ms]
          constructor
          · rintro ⟨a, b, c⟩; exact ⟨⟨a, by omega, by omega⟩, by omega⟩
          · rintro ⟨⟨a, b, c⟩, d⟩
            have : ¬ (e.addr ≤ x ∧ x < e.addr + 2 ^ (e.ver.bits - e.plen)) := fun h => d ⟨a, h⟩
            exact ⟨a, by omega, by omega⟩
        · rw [sp.sizes]; unfold size; omega
      next h2 =>
        obtain ⟨r1, hr1, sp1⟩ := summarizeRange_spec s.ver s.addr (e.addr - 1) (by omega) (by omega)
        obtain ⟨r2, hr2, sp2⟩ := summarizeRange_spec s.ver (e.broadcast + 1) s.broadcast (by omega) (by omega)
        refine ⟨r1 ++ r2, by rw [hr1, hr2]; rfl, ⟨?_, ?_, ?_, ?_⟩, ?_⟩
        · intro n hn
          rcases List.mem_append.1 hn with h | h
          · exact sp1.wf n h
          · exact sp2.wf n h
        · intro v x
          rw [den_append, sp1.den, sp2.den, me, ms]
          constructor
          · rintro (⟨a, b, c⟩ | ⟨a, b, c⟩) <;> exact ⟨⟨a, by omega, by omega⟩, by omega⟩
          · rintro ⟨⟨a, b, c⟩, d⟩
            have : ¬ (e.addr ≤ x ∧ x < e.addr + 2 ^ (e.ver.bits - e.plen)) := fun h => d ⟨a, h⟩
            rcases Nat.lt_or_ge x e.addr with h | h
            · exact .inl ⟨a, by omega, by omega⟩
            · exact .inr ⟨a, by omega, by omega⟩
        · rw [List.pairwise_append]
          refine ⟨sp1.sorted, sp2.sorted, ?_⟩
          intro a ha b hb
          have pa := Nat.two_pow_pos (a.ver.bits - a.plen)
          have h1 := (sp1.den a.ver (a.addr + 2 ^ (a.ver.bits - a.plen) - 1)).1
            ⟨a, ha, rfl, by omega, by omega⟩
          have h2 := (sp2.den b.ver b.addr).1 ⟨b, hb, mem_self⟩
          exact .inr ⟨h1.1.trans h2.1.symm, by omega⟩
        · rw [List.map_append, List.sum_append, sp1.sizes, sp2.sizes]; unfold size; omega
        · intro n hn
          rcases List.mem_append.1 hn with h | h
          · exact sp1.fresh n h
          · exact sp2.fresh n h

theorem excludeAddress_valueError {s e : Net} (ws : WF s) (we : WF e) (hv : s.ver = e.ver) :
    excludeAddress s e = .error .valueError ↔ ¬ (∀ v x, Mem e v x → Mem s v x) := by
  constructor
  · intro h hsub
    obtain ⟨r, hr, _⟩ := excludeAddress_spec ws we hsub
    rw [hr] at h; cases h
  · intro h
    unfold excludeAddress
    have : ¬ (e.subnetOf s = true) := fun h' => h ((subnetOf_iff we ws).1 h')
    rw [if_neg (by simp [hv]), if_pos this]

/-! ### RemoveAddressFromList -/

theorem removeLoop_spec {e : Net} (we : WF e) : ∀ (l : List Net), (∀ n ∈ l, WF n) →
    ∃ r, removeLoop e l = .ok r ∧ (∀ n ∈ r, WF n) ∧
      (∀ v x, Den r v x ↔ Den l v x ∧ ¬ Mem e v x) := by
  intro l
  induction l with
  | nil => intro _; exact ⟨[], rfl, by simp, by simp⟩
  | cons a as ih =>
    intro hw
    have wa := hw a (List.mem_cons_self ..)
    obtain ⟨r, hr, h1, h2⟩ := ih (fun n hn => hw n (List.mem_cons_of_mem _ hn))
    have main : ∃ here, (if (e.eqv a || a.subnetOf e) = true then (Except.ok [] : Except Err (List Net))
        else if (e.ver == a.ver && e.subnetOf a) = true then excludeAddress a e else .ok [a]) = .ok here ∧
        (∀ n ∈ here, WF n) ∧ (∀ v x, Den here v x ↔ Mem a v x ∧ ¬ Mem e v x) := by
      split
      next hc =>
        refine ⟨[], rfl, by simp, ?_⟩
        intro v x
        have : Mem a v x → Mem e v x := by
          rw [Bool.or_eq_true] at hc
          rcases hc with hc | hc
          · exact (mem_congr_block ((eqv_iff we wa).1 hc) v x).2
          · exact (subnetOf_iff wa we).1 hc v x
        simp only [den_nil, false_iff, not_and, Classical.not_not]
        exact this
      next hc =>
        simp only [Bool.or_eq_true, not_or] at hc
        split
        next hd =>
          simp only [Bool.and_eq_true] at hd
          obtain ⟨r', hr', sp, _⟩ := excludeAddress_spec wa we ((subnetOf_iff we wa).1 hd.2)
          exact ⟨r', hr', sp.wf, sp.den⟩
        next hd =>
          refine ⟨[a], rfl, by simpa using wa, ?_⟩
          intro v x
          have : Mem a v x → ¬ Mem e v x := by
            intro ha he
            rcases nested_or wa we ha he with h | h
            · exact hc.2 ((subnetOf_iff wa we).2 h)
            · apply hd
              have hs := (subnetOf_iff we wa).2 h
              simp only [hs, Bool.and_true, beq_iff_eq]
              rw [he.1, ha.1]
          rw [den_cons]
          simp only [den_nil, or_false]
          exact ⟨fun h => ⟨h, this h⟩, fun h => h.1⟩
    obtain ⟨here, hh, g1, g2⟩ := main
    refine ⟨here ++ r, ?_, ?_, ?_⟩
    · have : removeLoop e (a :: as) = (do
          let here ← (if (e.eqv a || a.subnetOf e) = true then (Except.ok [] : Except Err (List Net))
            else if (e.ver == a.ver && e.subnetOf a) = true then excludeAddress a e else .ok [a])
          let there ← removeLoop e as
          .ok (here ++ there)) := by
        simp only [removeLoop]
        split
        · rfl
        · split <;> rfl
      rw [this, hh, hr]; rfl
    · intro n hn
      rcases List.mem_append.1 hn with h | h
      · exact g1 n h
      · exact h1 n h
    · intro v x
      rw [den_append, g2, h2, den_cons]
      constructor
      · rintro (⟨a, b⟩ | ⟨a, b⟩)
        · exact ⟨.inl a, b⟩
        · exact ⟨.inr a, b⟩
      · rintro ⟨a | a, b⟩
        · exact .inl ⟨a, b⟩
        · exact .inr ⟨a, b⟩

theorem removeAddressFromList_spec {e : Net} (we : WF e) (l : List Net) (hl : ∀ n ∈ l, WF n) :
    ∃ r, removeAddressFromList l e = .ok r ∧ (∀ n ∈ r, WF n) ∧
      (∀ v x, Den r v x ↔ Den l v x ∧ ¬ Mem e v x) ∧
      r.Pairwise (fun a b => KeyLt a b ∨ block a = block b) := by
  obtain ⟨r, hr, h1, h2⟩ := removeLoop_spec we l hl
  refine ⟨sortAddrList r, ?_, ?_, ?_, ?_⟩
  · unfold removeAddressFromList; rw [hr]; rfl
  · intro n hn; exact h1 n (mem_isort.1 hn)
  · intro v x; rw [← h2]; exact den_perm (isort_perm _ _) v x
  · exact sortAddrList_sorted r h1

/-- the single-network case used by the sweep: the pieces are in order -/
theorem removeOne_spec {s e : Net} (ws : WF s) (we : WF e) {v x} (hs : Mem s v x) (he : Mem e v x) :
    ∃ r, removeAddressFromList [s] e = .ok r ∧ (∀ n ∈ r, WF n) ∧
      (∀ v x, Den r v x ↔ Mem s v x ∧ ¬ Mem e v x) ∧ r.Pairwise EndsBefore ∧
      (r.map size).sum < size s := by
  have pss := Nat.two_pow_pos (s.ver.bits - s.plen)
  unfold removeAddressFromList removeLoop removeLoop
  split
  next hc =>
    refine ⟨[], rfl, by simp, ?_, List.Pairwise.nil, by simp [size]; omega⟩
    intro v x
    have : Mem s v x → Mem e v x := by
      rw [Bool.or_eq_true] at hc
      rcases hc with hc | hc
      · exact (mem_congr_block ((eqv_iff we ws).1 hc) v x).2
      · exact (subnetOf_iff ws we).1 hc v x
    simp only [den_nil, false_iff, not_and, Classical.not_not]
    exact this
  next hc =>
    simp only [Bool.or_eq_true, not_or] at hc
    have hsub : ∀ v x, Mem e v x → Mem s v x := by
      rcases nested_or ws we hs he with h | h
      · exact absurd ((subnetOf_iff ws we).2 h) hc.2
      · exact h
    have hso := (subnetOf_iff we ws).2 hsub
    have hv : (e.ver == s.ver) = true := by rw [beq_iff_eq, hs.1, he.1]
    obtain ⟨r, hr, sp, _⟩ := excludeAddress_spec ws we hsub
    have hsorted : isort Net.keyLe r = r := by
      apply isort_of_sorted
      refine List.Pairwise.imp_of_mem ?_ sp.sorted
      intro a b ha hb h
      exact (keyLe_iff (sp.wf a ha) (sp.wf b hb)).2 (.inl (endsBefore_keyLt h))
    refine ⟨r, ?_, sp.wf, sp.den, sp.sorted, ?_⟩
    · rw [hv, hso]
      simp only [Bool.and_self, if_true, hr]
      show Except.ok (sortAddrList (r ++ [])) = _
      rw [List.append_nil]; unfold sortAddrList; rw [hsorted]
    · have := sp.sizes
      have : 0 < size e := Nat.two_pow_pos _
      omega

/-! ### the sweep -/

theorem endsBefore_trans {a b c : Net} (h1 : EndsBefore a b) (h2 : EndsBefore b c) :
    EndsBefore a c := by
  unfold EndsBefore at *
  have pp := Nat.two_pow_pos (b.ver.bits - b.plen)
  rcases h1 with h1 | ⟨e1, h1⟩ <;> rcases h2 with h2 | ⟨e2, h2⟩
  · left; omega
  · left; rw [← e2]; exact h1
  · left; rw [e1]; exact h2
  · right; exact ⟨e1.trans e2, by omega⟩

theorem endsBefore_of_le {a b c : Net} (h1 : EndsBefore a b) (h2 : KeyLt b c ∨ block b = block c) :
    EndsBefore a c := by
  rcases h2 with h2 | h2
  · unfold EndsBefore at *
    unfold KeyLt at h2
    rcases h1 with h1 | ⟨e1, h1⟩ <;> rcases h2 with h2 | ⟨e2, h2⟩
    · left; omega
    · left; rw [← e2]; exact h1
    · left; rw [e1]; exact h2
    · right; exact ⟨e1.trans e2, by omega⟩
  · exact (endsBefore_congr rfl h2).1 h1

theorem endsBefore_of_disj_lt {a b : Net} (wa : WF a) (wb : WF b) (h : KeyLt a b ∨ block a = block b)
    (hd : ¬ ∃ v x, Mem a v x ∧ Mem b v x) : EndsBefore a b := by
  apply endsBefore_of_not_sub wa wb h
  intro hs
  exact hd ⟨_, _, hs _ _ mem_self, mem_self⟩

theorem sweep_spec : ∀ (fuel : Nat) (sup exs ret : List Net),
    sweepFuel sup exs ≤ fuel →
    (∀ n ∈ sup, WF n) → (∀ n ∈ exs, WF n) → (∀ n ∈ ret, WF n) →
    sup.Pairwise EndsBefore →
    exs.Pairwise (fun a b => KeyLt a b ∨ block a = block b) →
    ∃ r, sweep fuel sup exs ret = .ok r ∧ (∀ n ∈ r, WF n) ∧
      (∀ v x, Den r v x ↔ Den ret v x ∨ (Den sup v x ∧ ¬ Den exs v x)) := by
  intro fuel
  induction fuel with
  | zero =>
    intro sup exs ret hf wsup wexs wret hs he
    cases sup with
    | nil =>
      refine ⟨ret.reverse, by simp [sweep], by simpa using wret, ?_⟩
      intro v x; rw [den_reverse]; simp
    | cons s sup =>
      exfalso
      have : 0 < size s := Nat.two_pow_pos _
      simp only [sweepFuel, List.map_cons, List.sum_cons] at hf
      omega
  | succ fuel ih =>
    intro sup exs ret hf wsup wexs wret hs he
    cases sup with
    | nil =>
      refine ⟨ret.reverse, by simp [sweep], by simpa using wret, ?_⟩
      intro v x; rw [den_reverse]; simp
    | cons s sup =>
      cases exs with
      | nil =>
        refine ⟨ret.reverse ++ (s :: sup).reverse, by simp [sweep], ?_, ?_⟩
        · intro n hn
          rcases List.mem_append.1 hn with h | h
          · exact wret n (List.mem_reverse.1 h)
          · exact wsup n (List.mem_reverse.1 h)
        · intro v x; rw [den_append, den_reverse, den_reverse]; simp
      | cons e exs =>
        have ws := wsup s (List.mem_cons_self ..)
        have we := wexs e (List.mem_cons_self ..)
        have hs' := List.pairwise_cons.1 hs
        have he' := List.pairwise_cons.1 he
        have wsup' : ∀ n ∈ sup, WF n := fun n hn => wsup n (List.mem_cons_of_mem _ hn)
        have wexs' : ∀ n ∈ exs, WF n := fun n hn => wexs n (List.mem_cons_of_mem _ hn)
        simp only [sweepFuel, List.map_cons, List.sum_cons, List.length_cons] at hf
        unfold sweep
        split
        next hov =>
          obtain ⟨v0, x0, m1, m2⟩ := (overlaps_iff ws we).1 hov
          obtain ⟨pieces, hp, pw, pd, psort, psz⟩ := removeOne_spec ws we m1 m2
          rw [hp]
          obtain ⟨r, hr, rw_, rd⟩ := ih (pieces ++ sup) (e :: exs) ret
            (by simp only [sweepFuel, List.map_append, List.sum_append, List.length_cons]; omega)
            (by
              intro n hn
              rcases List.mem_append.1 hn with h | h
              · exact pw n h
              · exact wsup' n h)
            wexs wret
            (by
              rw [List.pairwise_append]
              refine ⟨psort, hs'.2, ?_⟩
              intro a ha b hb
              -- a ⊆ s and s ends before b
              have hsb := hs'.1 b hb
              have pa := Nat.two_pow_pos (a.ver.bits - a.plen)
              have q := ((pd a.ver (a.addr + 2 ^ (a.ver.bits - a.plen) - 1)).1
                ⟨a, ha, rfl, by omega, by omega⟩).1
              unfold EndsBefore at hsb ⊢
              obtain ⟨q1, q2, q3⟩ := q
              rcases hsb with h | ⟨h1, h2⟩
              · left; rw [← q1]; exact h
              · right; exact ⟨by rw [← q1, h1], by omega⟩)
            he
          refine ⟨r, hr, rw_, ?_⟩
          intro v x
          rw [rd, den_append, pd, den_cons, den_cons]
          constructor
          · rintro (h | ⟨(⟨h1, h2⟩ | h1), h3⟩)
            · exact .inl h
            · exact .inr ⟨.inl h1, h3⟩
            · exact .inr ⟨.inr h1, h3⟩
          · rintro (h | ⟨h1 | h1, h3⟩)
            · exact .inl h
            · exact .inr ⟨.inl ⟨h1, fun h => h3 (.inl h)⟩, h3⟩
            · exact .inr ⟨.inr h1, h3⟩
        next hov =>
          have hdis : ¬ ∃ v x, Mem s v x ∧ Mem e v x := fun h => hov ((overlaps_iff ws we).2 h)
          split
          next hlt =>
            have hlt' := (keyLt_iff ws we).1 hlt
            have eb := endsBefore_of_disj_lt ws we (.inl hlt') hdis
            have sdis : ∀ v x, Mem s v x → ¬ Den (e :: exs) v x := by
              rintro v x hm ⟨f, hf, hmf⟩
              rcases List.mem_cons.1 hf with rfl | hf
              · exact endsBefore_disj eb v x ⟨hm, hmf⟩
              · exact endsBefore_disj (endsBefore_of_le eb (he'.1 f hf)) v x ⟨hm, hmf⟩
            obtain ⟨r, hr, rw_, rd⟩ := ih sup (e :: exs) (s :: ret)
              (by
                have : 0 < size s := Nat.two_pow_pos _
                simp only [sweepFuel, List.length_cons]; omega)
              wsup' wexs
              (by
                intro n hn
                rcases List.mem_cons.1 hn with rfl | hn
                · exact ws
                · exact wret n hn)
              hs'.2 he
            refine ⟨r, hr, rw_, ?_⟩
            intro v x
            rw [rd, den_cons s ret, den_cons s sup]
            constructor
            · rintro ((h | h) | ⟨h1, h2⟩)
              · exact .inr ⟨.inl h, sdis v x h⟩
              · exact .inl h
              · exact .inr ⟨.inr h1, h2⟩
            · rintro (h | ⟨h1 | h1, h3⟩)
              · exact .inl (.inr h)
              · exact .inl (.inl h1)
              · exact .inr ⟨h1, h3⟩
          next hlt =>
            have hle : KeyLt e s ∨ block e = block s := by
              rw [← keyLe_iff we ws]
              unfold Net.keyLe
              rw [Bool.not_eq_true'] ; exact Bool.eq_false_iff.2 hlt
            have eb := endsBefore_of_disj_lt we ws hle
              (fun ⟨v, x, h1, h2⟩ => hdis ⟨v, x, h2, h1⟩)
            have edis : ∀ v x, Den (s :: sup) v x → ¬ Mem e v x := by
              rintro v x ⟨t, ht, hmt⟩ hme
              rcases List.mem_cons.1 ht with rfl | ht
              · exact endsBefore_disj eb v x ⟨hme, hmt⟩
              · exact endsBefore_disj (endsBefore_trans eb (hs'.1 t ht)) v x ⟨hme, hmt⟩
            obtain ⟨r, hr, rw_, rd⟩ := ih (s :: sup) exs ret
              (by simp only [sweepFuel, List.map_cons, List.sum_cons]; omega)
              wsup wexs' wret hs he'.2
            refine ⟨r, hr, rw_, ?_⟩
            intro v x
            rw [rd, den_cons e exs]
            constructor
            · rintro (h | ⟨h1, h2⟩)
              · exact .inl h
              · exact .inr ⟨h1, fun h => h.elim (edis v x h1) h2⟩
            · rintro (h | ⟨h1, h2⟩)
              · exact .inl h
              · exact .inr ⟨h1, fun h => h2 (.inr h)⟩

/-- disjoint and sorted gives `EndsBefore` order -/
theorem endsBefore_of_sorted_disjoint {l : List Net} (hw : ∀ n ∈ l, WF n)
    (hs : l.Pairwise (fun a b => KeyLt a b ∨ block a = block b)) (hd : Disjoint l) :
    l.Pairwise EndsBefore := by
  have := hs.and hd
  refine List.Pairwise.imp_of_mem ?_ this
  intro a b ha hb h
  exact endsBefore_of_disj_lt (hw a ha) (hw b hb) h.1 (fun ⟨v, x, hh⟩ => h.2 v x hh)

theorem canonical_endsBefore {l : List Net} (hw : ∀ n ∈ l, WF n) (h : Canonical l) :
    l.Pairwise EndsBefore :=
  endsBefore_of_sorted_disjoint hw (h.sorted.imp fun h => .inl h) h.disjoint

theorem addressListExclude_spec (sup exs : List Net) (hs : ∀ n ∈ sup, WF n) (he : ∀ n ∈ exs, WF n) :
    ∃ r, addressListExclude sup exs true = .ok r ∧ (∀ n ∈ r, WF n) ∧ Canonical r ∧
      (∀ v x, Den r v x ↔ Den sup v x ∧ ¬ Den exs v x) := by
  obtain ⟨w1, d1⟩ := collapse_spec sup hs
  obtain ⟨w2, d2⟩ := collapse_spec exs he
  obtain ⟨r, hr, wr, dr⟩ := sweep_spec (sweepFuel (collapse sup) (collapse exs))
    (collapse sup) (collapse exs) [] (Nat.le_refl _) w1 w2 (by simp)
    (canonical_endsBefore w1 (collapse_canonical sup hs))
    ((collapse_canonical exs he).sorted.imp fun h => .inl h)
  obtain ⟨w3, d3⟩ := collapse_spec r wr
  refine ⟨collapse r, ?_, w3, collapse_canonical r wr, ?_⟩
  · unfold addressListExclude
    rw [if_pos rfl]
    show (sweep _ (collapse sup) (collapse exs) [] >>= _) = _
    rw [hr]; rfl
  · intro v x
    rw [d3 v x, dr v x, d1 v x, d2 v x]; simp

/-! ### collapse_addrs=False -/

theorem dedupNets_spec : ∀ (l seen : List Net), (∀ n ∈ l, WF n) → (∀ n ∈ seen, WF n) →
    (∀ n ∈ dedupNets seen l, n ∈ l ∨ n ∈ seen) ∧ SameDen (dedupNets seen l) (l ++ seen) := by
  intro l
  induction l with
  | nil =>
    intro seen _ _
    refine ⟨by intro n hn; simp [dedupNets] at hn; exact .inr hn, ?_⟩
    intro v x; simp only [dedupNets, den_reverse, List.nil_append]
  | cons a as ih =>
    intro seen wl ws
    have wa := wl a (List.mem_cons_self ..)
    have was : ∀ n ∈ as, WF n := fun n hn => wl n (List.mem_cons_of_mem _ hn)
    unfold dedupNets
    split
    next hc =>
      obtain ⟨h1, h2⟩ := ih seen was ws
      refine ⟨?_, ?_⟩
      · intro n hn
        rcases h1 n hn with h | h
        · exact .inl (List.mem_cons_of_mem _ h)
        · exact .inr h
      · intro v x
        rw [h2 v x, List.cons_append, den_cons]
        obtain ⟨s, hs, hse⟩ := List.any_eq_true.1 hc
        have hb := (eqv_iff (ws s hs) wa).1 hse
        constructor
        · exact .inr
        · rintro (h | h)
          · rw [den_append]
            exact .inr ⟨s, hs, (mem_congr_block hb v x).2 h⟩
          · exact h
    next hc =>
      obtain ⟨h1, h2⟩ := ih (a :: seen) was (by
        intro n hn
        rcases List.mem_cons.1 hn with rfl | hn
        · exact wa
        · exact ws n hn)
      refine ⟨?_, ?_⟩
      · intro n hn
        rcases h1 n hn with h | h
        · exact .inl (List.mem_cons_of_mem _ h)
        · rcases List.mem_cons.1 h with rfl | h
          · exact .inl (List.mem_cons_self ..)
          · exact .inr h
      · intro v x
        rw [h2 v x, List.cons_append, den_append, den_cons, den_cons, den_append, or_left_comm]

theorem mixed_false {l : List Net} : mixed l = false ↔ ∀ a ∈ l, ∀ b ∈ l, a.ver = b.ver := by
  unfold mixed
  simp [List.any_eq_false]

theorem addressListExclude_nocollapse_spec (sup exs : List Net)
    (hs : ∀ n ∈ sup, WF n) (he : ∀ n ∈ exs, WF n)
    (h1 : ∀ a ∈ sup, ∀ b ∈ sup, a.ver = b.ver) (h2 : ∀ a ∈ exs, ∀ b ∈ exs, a.ver = b.ver)
    (hd : Disjoint sup) :
    ∃ r, addressListExclude sup exs false = .ok r ∧ (∀ n ∈ r, WF n) ∧
      (∀ v x, Den r v x ↔ Den sup v x ∧ ¬ Den exs v x) := by
  have ws : ∀ n ∈ isort Net.keyLe sup.reverse, WF n := fun n hn => hs n (by simpa using mem_isort.1 hn)
  have we : ∀ n ∈ isort Net.keyLe exs.reverse, WF n := fun n hn => he n (by simpa using mem_isort.1 hn)
  have wsr : ∀ n ∈ sup.reverse, WF n := fun n hn => hs n (by simpa using hn)
  have wer : ∀ n ∈ exs.reverse, WF n := fun n hn => he n (by simpa using hn)
  have hdr : Disjoint (isort Net.keyLe sup.reverse) := by
    unfold Disjoint at *
    refine (List.Perm.pairwise_iff ?_ ((isort_perm _ _).trans (List.reverse_perm _))).2 hd
    intro a b h v x hh
    exact h v x ⟨hh.2, hh.1⟩
  obtain ⟨r, hr, wr, dr⟩ := sweep_spec (sweepFuel (isort Net.keyLe sup.reverse) (isort Net.keyLe exs.reverse))
    _ _ [] (Nat.le_refl _) ws we (by simp)
    (endsBefore_of_sorted_disjoint ws (sortAddrList_sorted _ wsr) hdr)
    (sortAddrList_sorted _ wer)
  obtain ⟨k1, k2⟩ := dedupNets_spec r [] wr (by simp)
  have dsup : SameDen (isort Net.keyLe sup.reverse) sup :=
    den_perm ((isort_perm _ _).trans (List.reverse_perm _))
  have dexs : SameDen (isort Net.keyLe exs.reverse) exs :=
    den_perm ((isort_perm _ _).trans (List.reverse_perm _))
  have dfinal : ∀ v x, Den (dedupNets [] r) v x ↔ Den sup v x ∧ ¬ Den exs v x := by
    intro v x
    rw [k2 v x, List.append_nil, dr v x, dsup v x, dexs v x]; simp
  have hver : ∀ n ∈ dedupNets [] r, ∃ s ∈ sup, s.ver = n.ver := by
    intro n hn
    obtain ⟨s, hs', hm⟩ := ((dfinal n.ver n.addr).1 ⟨n, hn, mem_self⟩).1
    exact ⟨s, hs', hm.1⟩
  have hmix : mixed (dedupNets [] r) = false := by
    rw [mixed_false]
    intro a ha b hb
    obtain ⟨s, hs', e⟩ := hver a ha
    obtain ⟨t, ht, e'⟩ := hver b hb
    rw [← e, ← e', h1 s hs' t ht]
  refine ⟨sortAddrList (dedupNets [] r), ?_, ?_, ?_⟩
  · unfold addressListExclude
    rw [if_neg (by simp), mixed_false.2 h1, mixed_false.2 h2]
    simp only [Bool.or_self, Bool.false_eq_true, if_false]
    simp only [hr, bind, Except.bind, hmix, Bool.false_eq_true, if_false]
  · intro n hn
    rcases k1 n (mem_isort.1 hn) with h | h
    · exact wr n h
    · cases h
  · intro v x
    rw [← dfinal]
    exact den_perm (isort_perm _ _) v x

end Verif
