import Verif.Spec.Pan
import Verif.Lemmas.PanMade

/-!
The sides of a term for the Palo Alto generator: exclusion, large networks, families.
-/

namespace Verif.Pan
open Verif Verif.Spec Policy Aclgenerator Nacaddr
open Verif.Srx (removeAll removeAll_spec)
open Verif.Spec.Pan (Whole Neat)

/-! ### exclusion -/

theorem mem_first (n : Net) : Mem n n.ver n.addr :=
  ⟨rfl, Nat.le_refl _, by have := Nat.two_pow_pos (n.ver.bits - n.plen); omega⟩

theorem removeLoop_whole {e : Net} (we : WF e) : ∀ {l r : List Net}, (∀ n ∈ l, WF n) →
    (∀ n ∈ l, (∀ v x, Mem n v x → Mem e v x) ∨ ∀ v x, Mem n v x → ¬ Mem e v x) → removeLoop e l = .ok r → ∀ n ∈ r, n ∈ l
  | [], r, _, _, h, n, hn => by
    cases h
    cases hn
  | a :: as, r, hl, hw, h, n, hn => by
    have hdef : removeLoop e (a :: as) = (do
        let here ← (if (e.eqv a || a.subnetOf e) = true then (Except.ok [] : Except Err (List Net))
          else if (e.ver == a.ver && e.subnetOf a) = true then excludeAddress a e else .ok [a])
        let there ← removeLoop e as
        .ok (here ++ there)) := by
      simp only [removeLoop]
      split
      · rfl
      · split <;> rfl
    rw [hdef] at h
    obtain ⟨here, hh, h⟩ := bind_ok h
    obtain ⟨there, ht, h⟩ := bind_ok h
    cases h
    have wa := hl a List.mem_cons_self
    rcases List.mem_append.1 hn with hn | hn
    · split at hh
      · cases hh
        cases hn
      next h1 =>
        rw [Bool.or_eq_true, not_or] at h1
        split at hh
        next h2 =>
          rw [Bool.and_eq_true] at h2
          have hsub := (subnetOf_iff we wa).1 h2.2
          rcases hw a List.mem_cons_self with h3 | h3
          · exact absurd ((subnetOf_iff wa we).2 h3) h1.2
          · exact absurd (mem_first e) (h3 _ _ (hsub _ _ (mem_first e)))
        · cases hh
          rw [List.mem_singleton.1 hn]
          exact List.mem_cons_self
    · exact List.mem_cons_of_mem _ (removeLoop_whole we (fun n hn => hl n (List.mem_cons_of_mem _ hn))
        (fun n hn => hw n (List.mem_cons_of_mem _ hn)) ht n hn)

theorem removeAll_whole : ∀ {es l r : List Net}, (∀ n ∈ l, WF n) → (∀ e ∈ es, WF e) → Whole l es → removeAll l es = .ok r →
    ∀ n ∈ r, n ∈ l
  | [], l, r, _, _, _, h, n, hn => by
    cases h
    exact hn
  | e :: es, l, r, hl, he, hw, h, n, hn => by
    rw [removeAll] at h
    obtain ⟨m, hm, h⟩ := bind_ok h
    unfold removeAddressFromList at hm
    obtain ⟨q, hq, hm⟩ := bind_ok hm
    cases hm
    have hin : ∀ n ∈ sortAddrList q, n ∈ l := fun n hn =>
      removeLoop_whole (he e List.mem_cons_self) hl (fun n hn => hw n hn e List.mem_cons_self) hq n (mem_isort.1 hn)
    exact hin n (removeAll_whole (fun n hn => hl n (hin n hn)) (fun e h => he e (List.mem_cons_of_mem _ h))
      (fun n hn e h => hw n (hin n hn) e (List.mem_cons_of_mem _ h)) h n hn)

/-- The networks of a side. -/
structure SideIs (inc exc r : List Net) : Prop where
  wf : ∀ n ∈ r, WF n
  mem : ∀ n ∈ r, n ∈ inc
  den : ∀ v x, Den r v x ↔ Den inc v x ∧ ¬ Den exc v x
  nil : r = [] ↔ inc = []
  matched : ∀ v x, AddrMatch inc exc v x ↔ r = [] ∨ Den r v x

theorem removeAll_nil : ∀ (es : List Net), removeAll [] es = .ok []
  | [] => rfl
  | _ :: es => removeAll_nil es

theorem side_is {inc exc r : List Net} (f : Neat inc exc) (h : removeAll inc exc = .ok r) : SideIs inc exc r := by
  obtain ⟨h1, h2⟩ := removeAll_spec exc f.wf f.wfx h
  have hnil : r = [] ↔ inc = [] := by
    constructor
    · intro e
      apply Classical.byContradiction
      intro hne
      obtain ⟨v, x, hx⟩ := f.left hne
      rw [← h2, e] at hx
      obtain ⟨n, hn, _⟩ := hx
      cases hn
    · intro e
      rw [e, removeAll_nil] at h
      cases h
      rfl
  refine ⟨h1, removeAll_whole f.wf f.wfx f.whole h, h2, hnil, fun v x => ?_⟩
  unfold AddrMatch
  rw [h2, hnil]
  constructor
  · rintro ⟨a | a, b⟩
    · exact .inl a
    · exact .inr ⟨a, b⟩
  · rintro (a | a)
    · refine ⟨.inl a, ?_⟩
      rw [f.naked a]
      rintro ⟨n, hn, _⟩
      cases hn
    · exact ⟨.inr a.1, a.2⟩

/-- The side has addresses of the version, or is for any. -/
def Good (r : List Net) (v : Ver) : Prop := r = [] ∨ ∃ n ∈ r, n.ver = v

theorem SideIs.good {inc exc r : List Net} (s : SideIs inc exc r) (v : Ver) :
    Good r v ↔ inc = [] ∨ ∃ x, Den inc v x ∧ ¬ Den exc v x := by
  unfold Good
  rw [s.nil]
  refine or_congr_right ?_
  constructor
  · rintro ⟨n, hn, rfl⟩
    exact ⟨n.addr, (s.den _ _).1 ⟨n, hn, mem_first n⟩⟩
  · rintro ⟨x, hx⟩
    obtain ⟨n, hn, hm⟩ := (s.den _ _).2 hx
    exact ⟨n, hn, hm.1⟩

theorem SideIs.goes {inc exc r : List Net} (s : SideIs inc exc r) {v : Ver} {x : Nat} (h : AddrMatch inc exc v x) : Good r v := by
  rcases (s.matched v x).1 h with h | ⟨n, hn, hm⟩
  · exact .inl h
  · exact .inr ⟨n, hn, hm.1⟩

/-! ### large networks -/

theorem subnets3_part {n m : Net} (w : WF n) (hm : m ∈ subnets3 n) :
    WF m ∧ m.parent = n.parent ∧ m.ver = n.ver ∧ ∀ v x, Mem m v x → Mem n v x := by
  unfold subnets3 at hm
  split at hm
  next h =>
    obtain ⟨hv, h0, h3⟩ := h
    obtain ⟨i, hi, rfl⟩ := List.mem_map.1 hm
    rw [List.mem_range] at hi
    have e1 : 2 ^ (3 - n.plen) * 2 ^ 125 = 2 ^ (128 - n.plen) := by
      rw [← Nat.pow_add]
      congr 1
      omega
    have hle : i * 2 ^ 125 + 2 ^ 125 ≤ 2 ^ (128 - n.plen) := by
      rw [← e1, ← Nat.succ_mul]
      exact Nat.mul_le_mul_right _ hi
    obtain ⟨w1, w2, w3⟩ := w
    rw [hv] at w1 w2 w3
    have hb : Ver.v6.bits = 128 := rfl
    rw [hb] at w1 w2 w3
    refine ⟨⟨(by show 3 ≤ 128; decide), ?_, ?_⟩, rfl, hv.symm, ?_⟩
    · show 2 ^ 125 ∣ n.addr + i * 2 ^ 125
      refine Nat.dvd_add (Nat.dvd_trans ?_ w2) (Nat.dvd_mul_left _ _)
      rw [← e1]
      exact Nat.dvd_mul_left _ _
    · show n.addr + i * 2 ^ 125 + 2 ^ 125 ≤ 2 ^ 128
      omega
    · rintro v x ⟨a, b, c⟩
      have b' : n.addr + i * 2 ^ 125 ≤ x := b
      have c' : x < n.addr + i * 2 ^ 125 + 2 ^ 125 := c
      have a' : Ver.v6 = v := a
      refine ⟨by rw [hv]; exact a', by omega, ?_⟩
      rw [hv, hb]
      omega
  · rw [List.mem_singleton.1 hm]
    exact ⟨w, rfl, rfl, fun _ _ h => h⟩

theorem subnets3_all {n : Net} {v : Ver} {x : Nat} (h : Mem n v x) : ∃ m ∈ subnets3 n, Mem m v x := by
  unfold subnets3
  split
  next hc =>
    obtain ⟨hv, h0, h3⟩ := hc
    obtain ⟨a, b, c⟩ := h
    rw [hv] at a c
    have hb : Ver.v6.bits = 128 := rfl
    rw [hb] at c
    have e1 : 2 ^ (3 - n.plen) * 2 ^ 125 = 2 ^ (128 - n.plen) := by
      rw [← Nat.pow_add]
      congr 1
      omega
    have hlt : (x - n.addr) / 2 ^ 125 < 2 ^ (3 - n.plen) := by
      rw [Nat.div_lt_iff_lt_mul (Nat.two_pow_pos _), e1]
      omega
    refine ⟨_, List.mem_map.2 ⟨(x - n.addr) / 2 ^ 125, List.mem_range.2 hlt, rfl⟩, a, ?_, ?_⟩
    · show n.addr + (x - n.addr) / 2 ^ 125 * 2 ^ 125 ≤ x
      have := Nat.div_mul_le_self (x - n.addr) (2 ^ 125)
      omega
    · show x < n.addr + (x - n.addr) / 2 ^ 125 * 2 ^ 125 + 2 ^ 125
      have := Nat.lt_div_mul_add (a := x - n.addr) (b := 2 ^ 125) (Nat.two_pow_pos _)
      omega
  · exact ⟨n, by simp, h⟩

theorem subnets3_ne (n : Net) : subnets3 n ≠ [] := by
  unfold subnets3
  split
  · intro h
    rw [List.map_eq_nil_iff, List.range_eq_nil] at h
    have := Nat.two_pow_pos (3 - n.plen)
    omega
  · simp

theorem tokens_nil {r : List Net} : tokensOf (r.flatMap subnets3) = [] ↔ r = [] := by
  unfold tokensOf
  constructor
  · intro h
    cases r with
    | nil => rfl
    | cons n r =>
      rw [List.flatMap_cons] at h
      cases hs : subnets3 n with
      | nil => exact absurd hs (subnets3_ne n)
      | cons m ms =>
        rw [hs] at h
        have : m.parent ∈ ((m :: ms ++ r.flatMap subnets3).map Net.parent).eraseDups := by
          rw [List.mem_eraseDups]
          simp
        rw [h] at this
        cases this
  · rintro rfl
    rfl

theorem mem_tokens {r : List Net} (hw : ∀ n ∈ r, WF n) {t : String} : t ∈ tokensOf (r.flatMap subnets3) ↔ ∃ n ∈ r, n.parent = t := by
  unfold tokensOf
  rw [List.mem_eraseDups, List.mem_map]
  constructor
  · rintro ⟨m, hm, rfl⟩
    obtain ⟨n, hn, hm⟩ := List.mem_flatMap.1 hm
    exact ⟨n, hn, (subnets3_part (hw n hn) hm).2.1.symm⟩
  · rintro ⟨n, hn, rfl⟩
    cases hs : subnets3 n with
    | nil => exact absurd hs (subnets3_ne n)
    | cons m ms =>
      have hm : m ∈ subnets3 n := by rw [hs]; exact List.mem_cons_self
      exact ⟨m, List.mem_flatMap.2 ⟨n, hn, hm⟩, (subnets3_part (hw n hn) hm).2.1⟩

/-! ### families -/

theorem good_iff {r : List Net} {v : Ver} : Good r v ↔ ((r.any fun a => a.ver == v) || r.isEmpty) = true := by
  unfold Good
  rw [Bool.or_eq_true, List.isEmpty_iff, List.any_eq_true]
  simp only [beq_iff_eq]
  exact or_comm

/-- `flows` as a function of what the sides have. -/
def flowsB (s d es ed : Bool) (n : String) : List String :=
  if es && ed then ["ip" ++ n ++ "-ip" ++ n]
  else if (!s && !es) && (!d && !ed) then []
  else if (s || es) && (d || ed) then ["ip" ++ n ++ "-ip" ++ n]
  else if (s || es) && !d then ["ip" ++ n ++ "-src-only", "ip" ++ n ++ "-only"]
  else if !s && (d || ed) then ["ip" ++ n ++ "-dst-only", "ip" ++ n ++ "-only"]
  else []

theorem flows_table : ∀ s4 d4 s6 d6 es ed : Bool, let l := flowsB s4 d4 es ed "4" ++ flowsB s6 d6 es ed "6"
    l.contains "ip4-ip4" = ((s4 || es) && (d4 || ed)) ∧ l.contains "ip6-ip6" = ((s6 || es) && (d6 || ed)) ∧
    l.contains "ip4-only" = ((s4 || es) != (d4 || ed)) ∧ l.contains "ip6-only" = ((s6 || es) != (d6 || ed)) := by decide

theorem flows_b (src dst : List Net) : flowsOf src dst =
    flowsB (src.any fun a => a.ver == .v4) (dst.any fun a => a.ver == .v4) src.isEmpty dst.isEmpty "4" ++
    flowsB (src.any fun a => a.ver == .v6) (dst.any fun a => a.ver == .v6) src.isEmpty dst.isEmpty "6" := rfl

theorem flows_spec (src dst : List Net) :
    ((flowsOf src dst).contains "ip4-ip4" = true ↔ Good src .v4 ∧ Good dst .v4) ∧
    ((flowsOf src dst).contains "ip6-ip6" = true ↔ Good src .v6 ∧ Good dst .v6) ∧
    ((flowsOf src dst).contains "ip4-only" = true ↔ ¬ (Good src .v4 ↔ Good dst .v4)) ∧
    ((flowsOf src dst).contains "ip6-only" = true ↔ ¬ (Good src .v6 ↔ Good dst .v6)) := by
  simp only [good_iff, flows_b]
  obtain ⟨h1, h2, h3, h4⟩ := flows_table (src.any fun a => a.ver == .v4) (dst.any fun a => a.ver == .v4)
    (src.any fun a => a.ver == .v6) (dst.any fun a => a.ver == .v6) src.isEmpty dst.isEmpty
  rw [h1, h2, h3, h4]
  have key : ∀ a b : Bool, (a != b) = true ↔ ¬ (a = true ↔ b = true) := by decide
  exact ⟨Bool.and_eq_true_iff, Bool.and_eq_true_iff, key _ _, key _ _⟩

theorem good_some (r : List Net) : Good r .v4 ∨ Good r .v6 := by
  cases r with
  | nil => exact .inl (.inl rfl)
  | cons n r =>
    cases hv : n.ver with
    | v4 => exact .inl (.inr ⟨n, List.mem_cons_self, hv⟩)
    | v6 => exact .inr (.inr ⟨n, List.mem_cons_self, hv⟩)

/-- The family is about the version. -/
def AfIs (af : String) (v : Ver) : Prop := af = "mixed" ∨ af = if v = .v6 then "inet6" else "inet"

theorem route_spec {af : String} {protocol : List String} {src dst : List Net} (haf : af = "inet" ∨ af = "inet6" ∨ af = "mixed") :
    (∀ ex, route af protocol (flowsOf src dst) = some ex →
      (∀ v, v ∉ ex ↔ AfIs af v ∧ Good src v ∧ Good dst v) ∧
      ("icmpv6" ∈ protocol → AfIs af .v6 ∧ Good src .v6 ∧ Good dst .v6) ∧
      ("icmp" ∈ protocol → AfIs af .v4 ∧ Good src .v4 ∧ Good dst .v4)) ∧
    (route af protocol (flowsOf src dst) = none → ∀ v, AfIs af v → Good src v → Good dst v →
      (v = .v4 ∧ "icmpv6" ∈ protocol ∧ ¬ (AfIs af .v6 ∧ Good src .v6 ∧ Good dst .v6)) ∨
      (v = .v6 ∧ "icmp" ∈ protocol ∧ ¬ (AfIs af .v4 ∧ Good src .v4 ∧ Good dst .v4))) := by
  obtain ⟨h1, h2, h3, h4⟩ := flows_spec src dst
  have hs := good_some src
  have hd := good_some dst
  generalize flowsOf src dst = l at *
  have p4 : protocol.contains "icmp" = true ↔ "icmp" ∈ protocol := List.contains_iff_mem
  have p6 : protocol.contains "icmpv6" = true ↔ "icmpv6" ∈ protocol := List.contains_iff_mem
  have a4 : AfIs "inet" .v4 ∧ ¬ AfIs "inet" .v6 := by unfold AfIs; decide
  have a6 : AfIs "inet6" .v6 ∧ ¬ AfIs "inet6" .v4 := by unfold AfIs; decide
  have am : AfIs "mixed" .v6 ∧ AfIs "mixed" .v4 := by unfold AfIs; decide
  rw [← p4, ← p6]
  clear p4 p6
  unfold route
  generalize protocol.contains "icmp" = i4 at *
  generalize protocol.contains "icmpv6" = i6 at *
  generalize l.contains "ip4-ip4" = c4 at *
  generalize l.contains "ip6-ip6" = c6 at *
  generalize l.contains "ip4-only" = o4 at *
  generalize l.contains "ip6-only" = o6 at *
  rcases haf with rfl | rfl | rfl
  · rw [if_pos rfl]
    cases i6 with
    | true =>
      refine ⟨(fun ex h => by cases h), fun _ v h1 _ _ => ?_⟩
      cases v with
      | v4 => exact .inl ⟨rfl, rfl, fun h => a4.2 h.1⟩
      | v6 => exact absurd h1 a4.2
    | false =>
      cases c4 with
      | true =>
        refine ⟨fun ex h => ?_, fun h => by cases h⟩
        cases h
        refine ⟨fun v => ?_, (fun h => by cases h), fun _ => ⟨a4.1, h1.1 rfl⟩⟩
        cases v with
        | v4 => exact iff_of_true (by decide) ⟨a4.1, h1.1 rfl⟩
        | v6 => exact iff_of_false (by decide) fun h => a4.2 h.1
      | false =>
        refine ⟨(fun ex h => by cases h), fun _ v h3 h4 h5 => ?_⟩
        cases v with
        | v4 => exact absurd (h1.2 ⟨h4, h5⟩) (by decide)
        | v6 => exact absurd h3 a4.2
  · rw [if_neg (by decide), if_pos rfl]
    cases i4 with
    | true =>
      refine ⟨(fun ex h => by cases h), fun _ v h1 _ _ => ?_⟩
      cases v with
      | v6 => exact .inr ⟨rfl, rfl, fun h => a6.2 h.1⟩
      | v4 => exact absurd h1 a6.2
    | false =>
      cases c6 with
      | true =>
        refine ⟨fun ex h => ?_, fun h => by cases h⟩
        cases h
        refine ⟨fun v => ?_, (fun _ => ⟨a6.1, h2.1 rfl⟩), fun h => by cases h⟩
        cases v with
        | v6 => exact iff_of_true (by decide) ⟨a6.1, h2.1 rfl⟩
        | v4 => exact iff_of_false (by decide) fun h => a6.2 h.1
      | false =>
        refine ⟨(fun ex h => by cases h), fun _ v h3 h4 h5 => ?_⟩
        cases v with
        | v6 => exact absurd (h2.2 ⟨h4, h5⟩) (by decide)
        | v4 => exact absurd h3 a6.2
  · rw [if_neg (by decide), if_neg (by decide)]
    cases c4 with
    | true =>
      have g4 := h1.1 rfl
      cases c6 with
      | true =>
        have g6 := h2.1 rfl
        refine ⟨fun ex h => ?_, fun h => by cases h⟩
        cases h
        refine ⟨fun v => ?_, fun _ => ⟨am.1, g6⟩, fun _ => ⟨am.2, g4⟩⟩
        cases v with
        | v4 => exact iff_of_true (by decide) ⟨am.2, g4⟩
        | v6 => exact iff_of_true (by decide) ⟨am.1, g6⟩
      | false =>
        have n6 : ¬ (AfIs "mixed" .v6 ∧ Good src .v6 ∧ Good dst .v6) := fun h => absurd (h2.2 h.2) (by decide)
        cases i6 with
        | true =>
          refine ⟨(fun ex h => by cases h), fun _ v h3 h4 h5 => ?_⟩
          cases v with
          | v4 => exact .inl ⟨rfl, rfl, n6⟩
          | v6 => exact absurd ⟨h3, h4, h5⟩ n6
        | false =>
          refine ⟨fun ex h => ?_, fun h => by cases h⟩
          cases h
          refine ⟨fun v => ?_, (fun h => by cases h), fun _ => ⟨am.2, g4⟩⟩
          cases v with
          | v4 => exact iff_of_true (by decide) ⟨am.2, g4⟩
          | v6 => exact iff_of_false (by decide) n6
    | false =>
      have n4 : ¬ (AfIs "mixed" .v4 ∧ Good src .v4 ∧ Good dst .v4) := fun h => absurd (h1.2 h.2) (by decide)
      cases c6 with
      | true =>
        have g6 := h2.1 rfl
        cases i4 with
        | true =>
          refine ⟨(fun ex h => by cases h), fun _ v h3 h4 h5 => ?_⟩
          cases v with
          | v6 => exact .inr ⟨rfl, rfl, n4⟩
          | v4 => exact absurd ⟨h3, h4, h5⟩ n4
        | false =>
          refine ⟨fun ex h => ?_, fun h => by cases h⟩
          cases h
          refine ⟨fun v => ?_, (fun _ => ⟨am.1, g6⟩), fun h => by cases h⟩
          cases v with
          | v6 => exact iff_of_true (by decide) ⟨am.1, g6⟩
          | v4 => exact iff_of_false (by decide) n4
      | false =>
        have n6 : ¬ (AfIs "mixed" .v6 ∧ Good src .v6 ∧ Good dst .v6) := fun h => absurd (h2.2 h.2) (by decide)
        have e4 : o4 = true := h3.2 fun e => by
          by_cases g : Good src .v4
          · exact n4 ⟨am.2, g, e.1 g⟩
          · exact n6 ⟨am.1, hs.resolve_left g, hd.resolve_left fun k => g (e.2 k)⟩
        have e6 : o6 = true := h4.2 fun e => by
          by_cases g : Good src .v6
          · exact n6 ⟨am.1, g, e.1 g⟩
          · exact n4 ⟨am.2, hs.resolve_right g, hd.resolve_right fun k => g (e.2 k)⟩
        subst e4 e6
        refine ⟨(fun ex h => by cases h), fun _ v h3 h4 h5 => ?_⟩
        cases v with
        | v6 => exact absurd ⟨h3, h4, h5⟩ n6
        | v4 => exact absurd ⟨h3, h4, h5⟩ n4

end Verif.Pan
