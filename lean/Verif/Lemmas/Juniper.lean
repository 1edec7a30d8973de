import Verif.Spec.Juniper
import Verif.Lemmas.NacMore
import Verif.Lemmas.Cisco

/-!
Lemmas about the Juniper generator: address blocks, groups, conditions.
-/

namespace Verif
namespace Juniper
open Spec Spec.Junos Summarizer Policy Aclgenerator

/-! ### minimised prefixes -/

/-- The includes that stay. -/
theorem mem_minimize_fst {inc exc : List Net} {n : Net} (hi : ∀ n ∈ inc, WF n) (he : ∀ n ∈ exc, WF n) :
    n ∈ (minimizePrefixes inc exc).1 ↔ n ∈ inc ∧ ∀ e ∈ exc, block n ≠ block e := by
  unfold minimizePrefixes
  simp only [List.mem_filter, Bool.not_eq_true', List.any_eq_false]
  constructor
  · rintro ⟨h1, h2⟩
    refine ⟨h1, fun e h h3 => ?_⟩
    exact h2 e h ((eqv_iff (hi n h1) (he e h)).2 h3)
  · rintro ⟨h1, h2⟩
    refine ⟨h1, fun e h h3 => ?_⟩
    exact h2 e h ((eqv_iff (hi n h1) (he e h)).1 h3)

/-- The excludes that stay. -/
theorem mem_minimize_snd {inc exc : List Net} {e : Net} (hi : ∀ n ∈ inc, WF n) (he : ∀ n ∈ exc, WF n) :
    e ∈ (minimizePrefixes inc exc).2 ↔
      e ∈ exc ∧ ∃ n ∈ inc, (∀ f ∈ exc, block n ≠ block f) ∧ ∀ v x, Mem e v x → Mem n v x := by
  have key := @mem_minimize_fst inc exc
  unfold minimizePrefixes at key ⊢
  dsimp only at key ⊢
  rw [List.mem_filter, List.any_eq_true]
  constructor
  · rintro ⟨h1, n, hn, h2⟩
    obtain ⟨h3, h4⟩ := (key hi he).1 hn
    exact ⟨h1, n, h3, h4, (subnetOf_iff (he e h1) (hi n h3)).1 h2⟩
  · rintro ⟨h1, n, hn, h2, h3⟩
    exact ⟨h1, n, (key hi he).2 ⟨hn, h2⟩, (subnetOf_iff (he e h1) (hi n hn)).2 h3⟩

/-- Minimising keeps the meaning. -/
theorem minimize_lpm (inc exc : List Net) (hi : ∀ n ∈ inc, WF n) (he : ∀ n ∈ exc, WF n) (v : Ver) (x : Nat) :
    LpmMatch (minimizePrefixes inc exc).1 (minimizePrefixes inc exc).2 v x ↔ LpmMatch inc exc v x := by
  constructor
  · rintro ⟨n, hn, hm, hl⟩
    obtain ⟨h1, h2⟩ := (mem_minimize_fst hi he).1 hn
    refine ⟨n, h1, hm, fun e hee hme => ?_⟩
    rcases Nat.lt_or_ge e.plen n.plen with h | h
    · exact h
    · have hs := nested_of_le (he e hee) (hi n h1) hme hm h
      exact hl e ((mem_minimize_snd hi he).2 ⟨hee, n, h1, h2, hs⟩) hme
  · rintro ⟨n, hn, hm, hl⟩
    refine ⟨n, (mem_minimize_fst hi he).2 ⟨hn, fun e hee hb => ?_⟩, hm, fun e hee hme =>
      hl e ((mem_minimize_snd hi he).1 hee).1 hme⟩
    have := hl e hee ((mem_congr_block hb v x).1 hm)
    have hp : n.plen = e.plen := congrArg (fun b => b.2.2) hb
    omega

/-! ### items of an address block -/

theorem quadValue_quad {m : MaskText} (h : ∃ a b c d, m = .quad a b c d) : quadValue m = MaskText.value m := by
  obtain ⟨a, b, c, d, rfl⟩ := h
  simp only [MaskText.value, quadValue]; omega

theorem mask_matches {d : DSM} (w : DWF d) (hm : d.netmask < 2 ^ 32) {x : Nat} (hx : x < 2 ^ 32) :
    (∀ i < 32, d.netmask.testBit i = true → x.testBit i = d.address.testBit i) ↔ x &&& d.netmask = d.address := by
  rw [← Cisco.dsm_matches w hm hx]
  have hb : ∀ i < 32, (2 ^ 32 - 1 - d.netmask).testBit i = !d.netmask.testBit i := by
    intro i hi
    have := Nat.testBit_two_pow_sub_succ hm i
    have e : 2 ^ 32 - (d.netmask + 1) = 2 ^ 32 - 1 - d.netmask := by omega
    rw [e] at this
    simp [this, hi]
  constructor
  · intro h i hi hz
    exact h i hi (by rw [hb i hi] at hz; simpa using hz)
  · intro h i hi hz
    exact h i hi (by rw [hb i hi, hz]; rfl)

theorem plen_testBit {l i : Nat} (hl : l ≤ 32) (hi : i < 32) : (2 ^ 32 - 2 ^ (32 - l)).testBit i = decide (32 - l ≤ i) := by
  have e : 2 ^ 32 - 2 ^ (32 - l) = 2 ^ (32 - l) * (2 ^ l - 1) + 0 := by
    have : 2 ^ 32 = 2 ^ (32 - l) * 2 ^ l := by rw [← Nat.pow_add]; congr 1; omega
    rw [Nat.mul_sub, ← this]; omega
  rw [e, Nat.testBit_two_pow_mul_add _ (Nat.two_pow_pos _), Nat.testBit_two_pow_sub_one, Nat.zero_testBit]
  by_cases h : i < 32 - l
  · simp [h]; omega
  · rw [if_neg h]; simp; omega

theorem masked_spec {d : DSM} {t : Tok} (w : DWF d) (hm : d.netmask < 2 ^ 32) (h : addrTok (.dsm d) = .ok t)
    {x : Nat} (hx : x < 2 ^ 32) : ItemMatches .v4 x t ↔ x &&& d.netmask = d.address := by
  unfold addrTok at h
  obtain ⟨⟨a, m⟩, h1, h2⟩ := bind_ok h
  simp only [Except.ok.injEq] at h2
  subst h2
  have hl : d.address < 2 ^ 32 := by
    rw [← w]; exact Nat.lt_of_le_of_lt Nat.and_le_right hm
  unfold toDottedQuad at h1
  split at h1
  · cases h1
  · split at h1
    · cases h1
    · rw [if_pos rfl] at h1
      simp only [Except.ok.injEq, Prod.mk.injEq] at h1
      obtain ⟨rfl, rfl⟩ := h1
      have hv := prefixlen_value d.netmask hm
      have ha : quadValue (quad d.address) = d.address := by
        rw [quadValue_quad (m := quad d.address) ⟨_, _, _, _, rfl⟩, quad_value _ hl]
      rw [← mask_matches w hm hx]
      have hplen : ∀ l, prefixlenForNonDSM d.netmask = .plen l → l ≤ 32 := by
        intro l hl
        unfold prefixlenForNonDSM at hl
        split at hl
        · cases hl; omega
        · dsimp only at hl
          split at hl
          · cases hl
          · cases hl
            rw [← length_bits32 d.netmask]; exact (List.takeWhile_sublist _).length_le
      generalize prefixlenForNonDSM d.netmask = mt at hv hplen ⊢
      cases mt with
      | plen l =>
        have hl32 := hplen l rfl
        simp only [MaskText.value] at hv
        unfold ItemMatches
        simp only [ha, true_and]
        rw [Cisco.div_eq_iff_testBit hx hl]
        constructor
        · intro h i hi hb
          rw [← hv, plen_testBit hl32 hi] at hb
          exact h i hi (by simpa using hb)
        · intro h i hi hb
          exact h i hi (by rw [← hv, plen_testBit hl32 hi]; simpa using hb)
      | quad a b c e =>
        unfold ItemMatches
        simp only [ha, true_and]
        have hq : quadValue (.quad a b c e) = d.netmask := by
          rw [quadValue_quad ⟨_, _, _, _, rfl⟩, hv]
        rw [hq]

/-- One address condition has the meaning of the lists. -/
theorem addrCond_spec {af : Ver} {dsmo : Bool} {hd : String} {inc exc : List Net} {r : Option (List Cond)}
    (hi : ∀ n ∈ inc, WF n) (he : ∀ n ∈ exc, WF n) (hm : dsmo = true → af = .v4 ∧ ∀ e ∈ exc, e.ver ≠ af)
    (h : addrCond af dsmo hd inc exc = .ok r) :
    (r = none → inc ≠ [] ∧ ∀ x, x < 2 ^ af.bits → ¬ LpmMatch inc exc af x) ∧
    ∀ cs, r = some cs → (cs = [] ∧ inc = []) ∨
      (inc ≠ [] ∧ ∃ ls, cs = [.block hd ls] ∧ ∀ x, x < 2 ^ af.bits → (AddrLines ls af x ↔ LpmMatch inc exc af x)) := by
  unfold addrCond at h
  dsimp only at h
  have hif : ∀ n ∈ inc.filter (fun n => n.ver == af), WF n := fun n hn => hi n (List.mem_filter.1 hn).1
  have hef : ∀ n ∈ exc.filter (fun n => n.ver == af), WF n := fun n hn => he n (List.mem_filter.1 hn).1
  have hl : ∀ x, LpmMatch (inc.filter fun n => n.ver == af) (exc.filter fun n => n.ver == af) af x ↔
      LpmMatch inc exc af x := by
    intro x
    constructor
    · rintro ⟨n, hn, h1, h2⟩
      exact ⟨n, (List.mem_filter.1 hn).1, h1, fun e hee hx => h2 e (List.mem_filter.2 ⟨hee, by simp [hx.1]⟩) hx⟩
    · rintro ⟨n, hn, h1, h2⟩
      exact ⟨n, List.mem_filter.2 ⟨hn, by simp [h1.1]⟩, h1, fun e hee hx => h2 e (List.mem_filter.1 hee).1 hx⟩
  cases dsmo with
  | false =>
    unfold addrLists at h
    simp only [Bool.false_eq_true, if_false] at h
    split at h
    next hz =>
      have hz' : (minimizePrefixes (inc.filter fun n => n.ver == af) (exc.filter fun n => n.ver == af)).1 = [] := by
        simpa using hz
      simp only [Except.ok.injEq] at h
      subst h
      split
      next h0 =>
        refine ⟨fun h => (by cases h), fun cs hc => .inl ⟨by cases hc; rfl, by simpa using h0⟩⟩
      next h0 =>
        refine ⟨fun _ => ⟨by simpa using h0, fun x _ hx => ?_⟩, fun cs hc => by cases hc⟩
        rw [← hl, ← minimize_lpm _ _ hif hef, hz'] at hx
        obtain ⟨n, hn, _⟩ := hx
        cases hn
    next hz =>
      obtain ⟨is, e1, h⟩ := bind_ok h
      obtain ⟨es, e2, h⟩ := bind_ok h
      simp only [Except.ok.injEq] at h
      subst h
      refine ⟨fun h => (by cases h), fun cs hc => .inr ⟨?_, _, by cases hc; rfl, fun x hx => ?_⟩⟩
      · rintro rfl
        exact hz rfl
      · rw [← hl, ← minimize_lpm _ _ hif hef]
        have hw1 : ∀ n ∈ (minimizePrefixes (inc.filter fun n => n.ver == af) (exc.filter fun n => n.ver == af)).1, WF n :=
          fun n hn => hif n ((mem_minimize_fst hif hef).1 hn).1
        have hw2 : ∀ n ∈ (minimizePrefixes (inc.filter fun n => n.ver == af) (exc.filter fun n => n.ver == af)).2, WF n :=
          fun n hn => hef n ((mem_minimize_snd hif hef).1 hn).1
        revert e1 e2 hw1 hw2
        generalize (minimizePrefixes (inc.filter fun n => n.ver == af) (exc.filter fun n => n.ver == af)).1 = I
        generalize (minimizePrefixes (inc.filter fun n => n.ver == af) (exc.filter fun n => n.ver == af)).2 = E
        intro e1 e2 hw1 hw2
        have hmap : ∀ l : List Net, listM addrTok (l.map .net) = .ok (l.map fun n => Tok.pfx n.ver n.addr n.plen) := by
          intro l
          induction l with
          | nil => rfl
          | cons n l ih =>
            simp only [List.map_cons]
            rw [listM, ih]
            rfl
        rw [hmap] at e1 e2
        cases e1
        cases e2
        have hit : ∀ n : Net, WF n → (ItemMatches af x (.pfx n.ver n.addr n.plen) ↔ Mem n af x) := by
          intro n wn
          rw [Cisco.mem_iff_div wn]
          rfl
        unfold AddrLines LpmMatch
        constructor
        · rintro ⟨t, ht, h1, h2⟩
          rw [List.mem_append] at ht
          rcases ht with ht | ht
          · simp only [List.map_map, List.mem_map, Function.comp] at ht
            obtain ⟨n, hn, e⟩ := ht
            cases e
            refine ⟨n, hn, (hit n (hw1 n hn)).1 h1, fun e hee hx => ?_⟩
            refine h2 (.pfx e.ver e.addr e.plen) ?_ ((hit e (hw2 e hee)).2 hx)
            rw [List.mem_append]
            right
            simp only [List.map_map, List.mem_map, Function.comp]
            exact ⟨e, hee, rfl⟩
          · simp only [List.mem_map] at ht
            obtain ⟨_, _, e⟩ := ht
            cases e
        · rintro ⟨n, hn, h1, h2⟩
          refine ⟨.pfx n.ver n.addr n.plen, ?_, (hit n (hw1 n hn)).2 h1, fun e hee hx => ?_⟩
          · rw [List.mem_append]
            left
            simp only [List.map_map, List.mem_map, Function.comp]
            exact ⟨n, hn, rfl⟩
          · rw [List.mem_append] at hee
            rcases hee with hee | hee
            · simp only [List.mem_map] at hee
              obtain ⟨_, _, e⟩ := hee
              cases e
            · simp only [List.map_map, List.mem_map, Function.comp] at hee
              obtain ⟨m, hm, e⟩ := hee
              cases e
              exact h2 m hm ((hit m (hw2 m hm)).1 hx)
  | true =>
    obtain ⟨h4, hex⟩ := hm rfl
    have hex' : exc.filter (fun n => n.ver == af) = [] := by
      rw [List.filter_eq_nil_iff]
      intro e hee
      simpa using hex e hee
    rw [hex'] at h
    have hlpm : ∀ x, LpmMatch inc exc af x ↔ Den (inc.filter fun n => n.ver == af) af x := by
      intro x
      rw [← hl, hex']
      constructor
      · rintro ⟨n, hn, h1, _⟩; exact ⟨n, hn, h1⟩
      · rintro ⟨n, hn, h1⟩; exact ⟨n, hn, h1, fun e he => by cases he⟩
    have hver : ∀ n ∈ inc.filter (fun n => n.ver == af), n.ver = af := fun n hn => by
      simpa using (List.mem_filter.1 hn).2
    have hs := summarize_spec Cisco.dsmOk_closed (fun _ h => h.1) _ af hif hver (fun m wm hm => by
          refine ⟨toDSM_dwf wm, ?_⟩
          obtain ⟨k, hk, hmk⟩ := hm m.ver m.addr mem_self
          have h4 : m.ver = .v4 := by rw [← hmk.1, hver k hk, h4]
          have e := netmask_eq wm.plen_le
          rw [h4] at e
          have hb : Ver.v4.bits = 32 := rfl
          rw [hb] at e
          have hp := Nat.two_pow_pos (32 - m.plen)
          rw [toDSM_netmask wm.plen_le]
          omega)
    have hs0 : summarize [] = [] := by decide
    unfold addrLists at h
    simp only [if_true, hs0, List.map_nil] at h
    generalize summarize (inc.filter fun n => n.ver == af) = S at h hs
    obtain ⟨hok, hden⟩ := hs
    split at h
    next hz =>
      have hz' : S = [] := by simpa using hz
      simp only [Except.ok.injEq] at h
      subst h
      split
      next h0 =>
        refine ⟨fun h => (by cases h), fun cs hc => .inl ⟨by cases hc; rfl, by simpa using h0⟩⟩
      next h0 =>
        refine ⟨fun _ => ⟨by simpa using h0, fun x hx hm => ?_⟩, fun cs hc => by cases hc⟩
        rw [hlpm, ← hden x hx, hz'] at hm
        obtain ⟨d, hd, _⟩ := hm
        cases hd
    next hz =>
      obtain ⟨is, e1, h⟩ := bind_ok h
      obtain ⟨es, e2, h⟩ := bind_ok h
      simp only [listM, Except.ok.injEq] at e2
      subst e2
      simp only [Except.ok.injEq] at h
      subst h
      refine ⟨fun h => (by cases h), fun cs hc => .inr ⟨?_, _, by cases hc; rfl, fun x hx => ?_⟩⟩
      · rintro rfl
        apply hz
        cases S with
        | nil => rfl
        | cons d S =>
          have w := (hok d (List.mem_cons_self ..))
          have hl : d.address < 2 ^ af.bits := by
            rw [h4, ← w.1]; exact Nat.lt_of_le_of_lt Nat.and_le_right w.2
          obtain ⟨n, hn, _⟩ := (hden d.address hl).1 ⟨d, List.mem_cons_self .., w.1⟩
          cases hn
      · rw [hlpm, ← hden x hx]
        have hm' := fun b => listM_mem e1 b
        have hme := Cisco.listM_each e1
        unfold AddrLines
        simp only [List.map_nil, List.append_nil]
        subst h4
        constructor
        · rintro ⟨t, ht, h1, _⟩
          obtain ⟨u, hu, e⟩ := List.mem_map.1 ht
          cases e
          obtain ⟨a, ha, h2⟩ := (hm' t).1 hu
          obtain ⟨d, hd, rfl⟩ := List.mem_map.1 ha
          exact ⟨d, hd, (masked_spec (hok d hd).1 (hok d hd).2 h2 hx).1 h1⟩
        · rintro ⟨d, hd, h1⟩
          obtain ⟨t, h2⟩ := hme (.dsm d) (List.mem_map.2 ⟨d, hd, rfl⟩)
          have ht := (hm' t).2 ⟨_, List.mem_map.2 ⟨d, hd, rfl⟩, h2⟩
          refine ⟨t, List.mem_map.2 ⟨t, ht, rfl⟩, (masked_spec (hok d hd).1 (hok d hd).2 h2 hx).2 h1, ?_⟩
          intro e he
          obtain ⟨_, _, e⟩ := List.mem_map.1 he
          cases e

/-- Most-specific-match is include minus exclude unless an include lies inside an exclude. -/
theorem lpm_addrMatch {inc exc : List Net} (hi : ∀ n ∈ inc, WF n) (he : ∀ n ∈ exc, WF n) (h0 : inc ≠ [])
    (hn : ∀ n ∈ inc, ∀ e ∈ exc, ¬ StrictSub n e) (v : Ver) (x : Nat) :
    LpmMatch inc exc v x ↔ AddrMatch inc exc v x := by
  constructor
  · rintro ⟨n, hn', hm, hl⟩
    refine ⟨.inr ⟨n, hn', hm⟩, ?_⟩
    rintro ⟨e, hee, hme⟩
    exact hn n hn' e hee (strictSub_of_plen (hi n hn') (he e hee) hm hme (hl e hee hme))
  · rintro ⟨h | ⟨n, hn', hm⟩, hx⟩
    · exact absurd h h0
    · exact ⟨n, hn', hm, fun e hee hme => absurd ⟨e, hee, hme⟩ hx⟩

end Juniper
end Verif
