import Verif.Spec.AristaTp
import Verif.Lemmas.Flat
import Verif.Lemmas.Juniper

/-!
Lemmas about the Arista traffic policy generator: protocols, options, addresses.
-/

namespace Verif
namespace AristaTp
open Spec Spec.Eos Policy Aclgenerator
open Juniper (minimizePrefixes mem_minimize_fst mem_minimize_snd)

/-! ### protocols -/

/-- What is printed for one protocol. -/
theorem word_is {s : String} {v : Ver} (hn : s ∈ iana.map Prod.fst) (h : (named v).contains s = true) {p : Packet} :
    ProtoIs p (.word s) ↔ p.proto = s := by
  have k : ∀ e ∈ iana, ∀ v, (named v).contains e.1 = true → e ∈ protoNames := by
    intro e he v
    cases v
    · revert e; decide
    · revert e; decide
  have k2 : ∀ a ∈ protoNames, ∀ b ∈ iana, b.2 = a.2 → a.1 ∈ iana.map Prod.fst → b.1 = a.1 := by decide
  obtain ⟨e, he, rfl⟩ := List.mem_map.1 hn
  constructor
  · rintro ⟨n, h1, h2⟩
    exact k2 _ h1 _ h2 rfl hn
  · intro h'
    exact ⟨e.2, k e he v h, by rw [h']; exact he⟩

theorem iana_lookup {s : String} (hn : s ∈ iana.map Prod.fst) : ∃ k : Nat, protoMap.lookup s = some (k : Int) ∧ (s, k) ∈ iana := by
  have k : ∀ e ∈ iana, protoMap.lookup e.1 = some (e.2 : Int) := by decide
  obtain ⟨e, he, rfl⟩ := List.mem_map.1 hn
  exact ⟨e.2, k e he, he⟩

theorem numberTok_is {s : String} (hn : s ∈ iana.map Prod.fst) {p : Packet} (hp : p.proto ∈ iana.map Prod.fst) :
    ProtoIs p (numberTok (if s = "ipip" then .num 4 else .str s)) ↔ p.proto = s := by
  obtain ⟨k, h1, _⟩ := iana_lookup hn
  have : numberTok (if s = "ipip" then .num 4 else .str s) = .num k := by
    split
    next e =>
      subst e
      have : (some 4 : Option Int) = some (k : Int) := by rw [← h1]; decide
      have := Option.some.inj this
      rw [numberTok, this]
    next => simp only [numberTok, h1]
  rw [this]
  exact Flat.numberIs_iff h1 hp

/-- The protocols of the line say what the protocols of the term say. -/
theorem protoToks_is {v : Ver} {l : List String} (hn : ∀ s ∈ l, s ∈ iana.map Prod.fst) {p : Packet}
    (hp : p.proto ∈ iana.map Prod.fst) :
    (∃ t ∈ protoToks v (l.map fun s => if s = "ipip" then .num 4 else .str s), ProtoIs p t) ↔ p.proto ∈ l := by
  unfold protoToks
  split
  next h =>
    rw [List.all_eq_true] at h
    simp only [List.map_map, List.mem_map, Function.comp]
    constructor
    · rintro ⟨_, ⟨s, hs, rfl⟩, ht⟩
      have hh := h _ (List.mem_map.2 ⟨s, hs, rfl⟩)
      by_cases e : s = "ipip"
      · rw [if_pos e] at hh; cases hh
      · rw [if_neg e] at hh ht
        rw [(word_is (hn s hs) hh).1 ht]; exact hs
    · intro hm
      refine ⟨_, ⟨p.proto, hm, rfl⟩, ?_⟩
      have hh := h _ (List.mem_map.2 ⟨_, hm, rfl⟩)
      by_cases e : p.proto = "ipip"
      · rw [if_pos e] at hh; cases hh
      · rw [if_neg e] at hh ⊢
        exact (word_is (hn _ hm) hh).2 rfl
  next h =>
    simp only [List.map_map, List.mem_map, Function.comp]
    constructor
    · rintro ⟨_, ⟨s, hs, rfl⟩, ht⟩
      rw [(numberTok_is (hn s hs) hp).1 ht]; exact hs
    · intro hm
      exact ⟨_, ⟨p.proto, hm, rfl⟩, (numberTok_is (hn _ hm) hp).2 rfl⟩

theorem protoToks_ports {v : Ver} {l : List String} (h : ∀ s ∈ l, s = "tcp" ∨ s = "udp") :
    ∀ t ∈ protoToks v (l.map fun s => if s = "ipip" then .num 4 else .str s), t = .word "tcp" ∨ t = .word "udp" := by
  have e : (l.map fun s => if s = "ipip" then Proto.num 4 else .str s) = l.map .str := by
    apply List.map_congr_left
    intro s hs
    rcases h s hs with rfl | rfl <;> rfl
  have ha : (l.map Proto.str).all (isNamed v) = true := by
    rw [List.all_eq_true]
    intro x hx
    obtain ⟨s, hs, rfl⟩ := List.mem_map.1 hx
    rcases h s hs with rfl | rfl <;> cases v <;> decide
  intro t ht
  unfold protoToks at ht
  rw [e, if_pos ha] at ht
  simp only [List.map_map, List.mem_map, Function.comp] at ht
  obtain ⟨s, hs, rfl⟩ := ht
  rcases h s hs with rfl | rfl
  · exact .inl rfl
  · exact .inr rfl

/-! ### protocol-except -/

theorem iana_fun {s : String} {j k : Nat} (h1 : (s, j) ∈ iana) (h2 : (s, k) ∈ iana) : j = k := by
  have key : ∀ a ∈ iana, ∀ b ∈ iana, a.1 = b.1 → a.2 = b.2 := by decide
  exact key _ h1 _ h2 rfl

theorem range_is {p : Packet} {k : Nat} (hk : (p.proto, k) ∈ iana) {a b : Int} :
    ProtoIs p (.range a b) ↔ a ≤ k ∧ (k : Int) ≤ b := by
  constructor
  · rintro ⟨j, h1, h2, h3⟩
    have := iana_fun h1 hk
    subst this
    exact ⟨h2, h3⟩
  · rintro ⟨h2, h3⟩
    exact ⟨k, hk, h2, h3⟩

/-- The ranges leave out exactly the listed numbers, and what is below the pointer. -/
theorem gaps_spec {p : Packet} {k : Nat} (hk : (p.proto, k) ∈ iana) : ∀ {ns : List Int} {ptr : Int},
    ns.Pairwise (· < ·) → (∀ n ∈ ns, n < 255) →
    ((∃ t ∈ gaps ptr ns, ProtoIs p t) ↔ ptr ≤ k ∧ (k : Int) ∉ ns)
  | [], ptr, _, _ => by
    have hb : ∀ e ∈ iana, e.2 < 255 := by decide
    have := hb _ hk
    dsimp only at this
    simp only [gaps, List.mem_singleton, exists_eq_left, List.not_mem_nil, not_false_iff, and_true, range_is hk]
    omega
  | n :: ns, ptr, hs, hb => by
    rw [List.pairwise_cons] at hs
    have hn := hb n (by simp)
    have hb' : ∀ m ∈ ns, m < 255 := fun m hm => hb m (by simp [hm])
    have ih := gaps_spec hk (ns := ns) (ptr := n + 1) hs.2 hb'
    have ih2 := gaps_spec hk (ns := ns) (ptr := ptr) hs.2 hb'
    have hlow : (k : Int) ∈ ns → n < k := fun h => hs.1 _ h
    rw [gaps, List.mem_cons]
    generalize hQ : ((k : Int) ∈ ns) = Q at *
    split
    next hc =>
      have : (∃ t ∈ ProtoTok.range ptr (n - 1) :: gaps (n + 1) ns, ProtoIs p t) ↔
          (ptr ≤ k ∧ (k : Int) ≤ n - 1) ∨ ∃ t ∈ gaps (n + 1) ns, ProtoIs p t := by
        simp only [List.mem_cons, exists_eq_or_imp, range_is hk]
      rw [this, ih]
      by_cases hq : Q
      · have := hlow hq
        simp only [hq, not_true, or_true, and_false, or_false, iff_false]
        omega
      · simp only [hq, not_false_iff, or_false, and_true]
        omega
    next hc =>
      split
      next e =>
        rw [ih]
        by_cases hq : Q
        · simp [hq]
        · simp only [hq, not_false_iff, or_false, and_true]
          omega
      next e =>
        rw [ih2]
        by_cases hq : Q
        · simp [hq]
        · simp only [hq, not_false_iff, or_false, and_true]
          omega

/-- `protocol_except` as ranges. -/
theorem exceptToks_is {v : Ver} {l : List String} {ts : List ProtoTok} (h : exceptToks v l = .ok ts)
    (hn : ∀ s ∈ l, s ∈ iana.map Prod.fst) {p : Packet} (hp : p.proto ∈ iana.map Prod.fst)
    (hz : v = .v4 → p.proto ≠ "hopopt") : (∃ t ∈ ts, ProtoIs p t) ↔ p.proto ∉ l := by
  unfold exceptToks at h
  obtain ⟨ns, h1, h⟩ := bind_ok h
  cases h
  obtain ⟨e, he, hpe⟩ := List.mem_map.1 hp
  have hk : (p.proto, e.2) ∈ iana := by rw [← hpe]; exact he
  have hb : ∀ e ∈ iana, e.2 < 255 := by decide
  have hval : ∀ s ∈ l, ∀ n, exceptNumber s = .ok n → ∃ k : Nat, n = k ∧ (s, k) ∈ iana := by
    intro s hs n hx
    obtain ⟨k, h2, h3⟩ := iana_lookup (hn s hs)
    unfold exceptNumber at hx
    rw [h2] at hx
    cases hx
    exact ⟨k, rfl, h3⟩
  have hmem : ∀ n : Int, n ∈ ns ↔ ∃ s ∈ l, exceptNumber s = .ok n := listM_mem h1
  have hsort : (isort (fun a b : Int => decide (a ≤ b)) ns.eraseDups).Pairwise (· < ·) := by
    have le : TotalPre (fun a b : Int => decide (a ≤ b)) := ⟨fun a b => by simp; omega, fun a b c h1 h2 => by simp at *; omega⟩
    have h1 := isort_sorted le ns.eraseDups
    have h2 : (isort (fun a b : Int => decide (a ≤ b)) ns.eraseDups).Nodup :=
      (isort_perm _ _).nodup_iff.2 (PyStr.nodup_eraseDups ns)
    exact (List.Pairwise.and h1 h2).imp fun ⟨a, b⟩ => by simp at a; omega
  rw [gaps_spec hk hsort]
  · rw [mem_isort, List.mem_eraseDups, hmem]
    have hlow : (if v = .v6 then (0 : Int) else 1) ≤ e.2 := by
      split
      · omega
      next hv =>
        have hv : v = .v4 := by cases v <;> simp_all
        have : e.2 ≠ 0 := by
          intro h0
          have key : ∀ a ∈ iana, a.2 = 0 → a.1 = "hopopt" := by decide
          exact hz hv (hpe ▸ key e he h0)
        omega
    constructor
    · rintro ⟨_, h⟩ hm
      obtain ⟨k, h2, h3⟩ := iana_lookup (hn _ hm)
      refine h ⟨p.proto, hm, ?_⟩
      unfold exceptNumber
      rw [h2, iana_fun h3 hk]
    · intro hm
      refine ⟨hlow, ?_⟩
      rintro ⟨s, hs, hx⟩
      obtain ⟨k, h2, h3⟩ := hval s hs _ hx
      have : e.2 = k := by omega
      have := Cisco.iana_inj _ h3 _ hk this.symm
      dsimp only at this
      exact hm (this ▸ hs)
  · intro n hn'
    rw [mem_isort, List.mem_eraseDups, hmem] at hn'
    obtain ⟨s, hs, hx⟩ := hn'
    obtain ⟨k, h2, h3⟩ := hval s hs _ hx
    have := hb _ h3
    dsimp only at this
    omega

/-! ### options -/

/-- The options that are rendered faithfully. -/
def fine : List String := ["established", "tcp-established", "initial", "rst", "is-fragment"]

theorem options_spec {ps : List Proto} : ∀ {os : List String} {acc r : List String × List String},
    (∀ o ∈ os, o ∈ fine) → options ps acc os = .ok r →
    (∀ f, f ∈ r.1 ↔ f ∈ acc.1 ∨ (ps = [.str "tcp"] ∧ ((f = "established" ∧ ("established" ∈ os ∨ "tcp-established" ∈ os)) ∨
      (f = "initial" ∧ "initial" ∈ os) ∨ (f = "rst" ∧ "rst" ∈ os)))) ∧
    (∀ m, m ∈ r.2 ↔ m ∈ acc.2 ∨ (m = "fragment" ∧ "is-fragment" ∈ os)) ∧ ("tcp-established" ∈ os → ps = [.str "tcp"])
  | [], acc, r, _, h => by
    rw [options] at h
    cases h
    simp
  | o :: os, acc, r, hf, h => by
    rw [options] at h
    obtain ⟨acc', h1, h⟩ := bind_ok h
    obtain ⟨a, b, c⟩ := options_spec (fun x hx => hf x (List.mem_cons_of_mem _ hx)) h
    have ho := hf o (by simp)
    have hest : ∀ f, f ∈ (if ps = [.str "tcp"] ∧ "established" ∉ acc.1 then (acc.1 ++ ["established"], acc.2) else acc).1 ↔
        f ∈ acc.1 ∨ (ps = [.str "tcp"] ∧ f = "established") := by
      intro f
      split
      next hc => simp [hc.1]
      next hc =>
        constructor
        · exact .inl
        · rintro (h | ⟨h1, rfl⟩)
          · exact h
          · exact Classical.byContradiction fun hn => hc ⟨h1, hn⟩
    have hest2 : (if ps = [.str "tcp"] ∧ "established" ∉ acc.1 then (acc.1 ++ ["established"], acc.2) else acc).2 = acc.2 := by
      split <;> rfl
    unfold optionStep at h1
    dsimp only at h1
    generalize (if ps = [.str "tcp"] ∧ "established" ∉ acc.1 then (acc.1 ++ ["established"], acc.2) else acc) = est at h1 hest hest2
    simp only [fine, List.mem_cons, List.not_mem_nil, or_false] at ho
    rcases ho with rfl | rfl | rfl | rfl | rfl
    · rw [if_pos (by decide)] at h1
      cases h1
      refine ⟨fun f => ?_, fun m => ?_, ?_⟩
      · rw [a, hest]; simp; grind
      · rw [b, hest2]; simp
      · simpa using c
    · rw [if_neg (by decide), if_pos (by decide)] at h1
      split at h1
      next ht =>
        cases h1
        refine ⟨fun f => ?_, fun m => ?_, fun _ => ht⟩
        · rw [a, hest]; simp; grind
        · rw [b, hest2]; simp
      next => cases h1
    · rw [if_neg (by decide), if_neg (by decide)] at h1
      split at h1
      next ht =>
        cases h1
        refine ⟨fun f => ?_, fun m => ?_, fun _ => ht.2⟩
        · rw [a]; simp [ht.2]; grind
        · rw [b]; simp
      next ht =>
        have ht' : ps ≠ [.str "tcp"] := fun e => ht ⟨by decide, e⟩
        rw [if_neg (by simp [ht']), if_neg (by decide)] at h1
        cases h1
        refine ⟨fun f => ?_, fun m => ?_, ?_⟩
        · rw [a]; simp [ht']
        · rw [b]; simp
        · simpa using c
    · rw [if_neg (by decide), if_neg (by decide), if_neg (fun h => absurd h.1 (by decide))] at h1
      split at h1
      next ht =>
        cases h1
        refine ⟨fun f => ?_, fun m => ?_, fun _ => ht.2⟩
        · rw [a]; simp [ht.2]; grind
        · rw [b]; simp
      next ht =>
        have ht' : ps ≠ [.str "tcp"] := fun e => ht ⟨by decide, e⟩
        rw [if_neg (by decide)] at h1
        cases h1
        refine ⟨fun f => ?_, fun m => ?_, ?_⟩
        · rw [a]; simp [ht']
        · rw [b]; simp
        · simpa using c
    · rw [if_neg (by decide), if_neg (by decide), if_neg (fun h => absurd h.1 (by decide)),
        if_neg (fun h => absurd h.1 (by decide)), if_pos (by decide)] at h1
      cases h1
      refine ⟨fun f => ?_, fun m => ?_, ?_⟩
      · rw [a]; simp
      · rw [b]; simp; grind
      · simpa using c

/-! ### addresses -/

theorem mem_ofVersion {v : Ver} {l : List Net} {n : Net} : n ∈ ofVersion v l ↔ n ∈ l ∧ n.ver = v := by
  unfold ofVersion
  simp [List.mem_filter]

theorem covers_pfx {n : Net} (w : WF n) (v : Ver) (x : Nat) : Flat.Covers (pfx n) v x ↔ Mem n v x := Flat.covers_iff w v x

/-- The prefixes and exceptions of a field set say what the addresses of the term say. -/
theorem minimized_is {v : Ver} {inc exc : List Net} (hi : ∀ n ∈ inc, WF n) (he : ∀ n ∈ exc, WF n) (h0 : inc ≠ [])
    (hn : ∀ n ∈ inc, ∀ e ∈ exc, ¬ StrictSub n e) (x : Nat) :
    ((∃ q ∈ (minimizePrefixes (ofVersion v inc) (ofVersion v exc)).1.map pfx, Flat.Covers q v x) ∧
      ∀ q ∈ (minimizePrefixes (ofVersion v inc) (ofVersion v exc)).2.map pfx, ¬ Flat.Covers q v x) ↔
    AddrMatch inc exc v x := by
  have hi' : ∀ n ∈ ofVersion v inc, WF n := fun n h => hi n (mem_ofVersion.1 h).1
  have he' : ∀ n ∈ ofVersion v exc, WF n := fun n h => he n (mem_ofVersion.1 h).1
  simp only [List.mem_map, forall_exists_index, and_imp, forall_apply_eq_imp_iff₂]
  constructor
  · rintro ⟨⟨_, ⟨n, hm, rfl⟩, hc⟩, hx⟩
    obtain ⟨h1, h2⟩ := (mem_minimize_fst hi' he').1 hm
    have hn1 := (mem_ofVersion.1 h1).1
    rw [covers_pfx (hi n hn1)] at hc
    refine ⟨.inr ⟨n, hn1, hc⟩, ?_⟩
    rintro ⟨e, hee, hme⟩
    have hev : e ∈ ofVersion v exc := mem_ofVersion.2 ⟨hee, hme.1⟩
    rcases Nat.lt_or_ge e.plen n.plen with h | h
    · exact hn n hn1 e hee (strictSub_of_plen (hi n hn1) (he e hee) hc hme h)
    · have hs := nested_of_le (he e hee) (hi n hn1) hme hc h
      have hmm := (mem_minimize_snd hi' he').2 ⟨hev, n, h1, h2, hs⟩
      exact hx e hmm ((covers_pfx (he e hee) v x).2 hme)
  · rintro ⟨h | ⟨n, hm, hc⟩, hx⟩
    · exact absurd h h0
    · refine ⟨⟨_, ⟨n, ?_, rfl⟩, (covers_pfx (hi n hm) v x).2 hc⟩, ?_⟩
      · refine (mem_minimize_fst hi' he').2 ⟨mem_ofVersion.2 ⟨hm, hc.1⟩, fun e hee hbe => hx ⟨e, (mem_ofVersion.1 hee).1, ?_⟩⟩
        exact (mem_congr_block hbe v x).1 hc
      · intro e hm' hc'
        have := ((mem_minimize_snd hi' he').1 hm').1
        have hee := (mem_ofVersion.1 this).1
        exact hx ⟨e, hee, (covers_pfx (he e hee) v x).1 hc'⟩

theorem prefixes_are {v : Ver} {inc exc : List Net} (hi : ∀ n ∈ inc, WF n) (h0 : ofVersion v exc = []) (h1 : inc ≠ [])
    (x : Nat) : (∃ q ∈ (ofVersion v inc).map pfx, Flat.Covers q v x) ↔ AddrMatch inc exc v x := by
  constructor
  · rintro ⟨q, hq, hc⟩
    obtain ⟨n, hn, rfl⟩ := List.mem_map.1 hq
    have hm := (mem_ofVersion.1 hn).1
    refine ⟨.inr ⟨n, hm, (covers_pfx (hi n hm) v x).1 hc⟩, ?_⟩
    rintro ⟨e, hee, hme⟩
    have : e ∈ ofVersion v exc := mem_ofVersion.2 ⟨hee, hme.1⟩
    rw [h0] at this
    cases this
  · rintro ⟨h | ⟨n, hm, hc⟩, _⟩
    · exact absurd h h1
    · exact ⟨_, List.mem_map.2 ⟨n, mem_ofVersion.2 ⟨hm, hc.1⟩, rfl⟩, (covers_pfx (hi n hm) v x).2 hc⟩

end AristaTp
end Verif
