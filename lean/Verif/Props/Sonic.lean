import Verif.Lemmas.Sonic
import Verif.Props.OpenConfig

/-!
Properties of the model of capirca/lib/sonic.py: C77, C78.
-/

namespace Verif.Props
open Verif Verif.Spec Verif.Spec.Flat Verif.Sonic Policy Aclgenerator Nacaddr
open Verif.OpenConfig (OTerm orAny orZero AllOrNone Sets)

/-- The options are rendered faithfully. -/
def SOptions (t : Term) : Prop :=
  t.option = [] ∨
  ((∀ o ∈ t.option, o = "tcp-established") ∧ t.protocol ≠ [] ∧ (∀ q ∈ t.protocol, q = "tcp" ∨ q = "udp") ∧
    t.protocol.Pairwise fun a b => a = "tcp" → b = "tcp")

/-- All ports of the list are single ports, or all are ranges. -/
def SPorts (l : List PortRange) : Prop := (0, 0) ∉ l ∧ ((∀ r ∈ l, r.1 = r.2) ∨ ∀ r ∈ l, r.1 ≠ r.2)

/-- The terms that are rendered faithfully. For what happens without the conditions beyond the tool's own checks, see the
refutations. -/
structure SFits (t : Term) : Prop where
  keywords : initCheck Sonic.tables [(["sonic"], [kterm t])] = .ok ()
  sane : sanityCheck t = .ok ()
  active : Active "sonic" (kterm t)
  action : ∃ a, t.action = [a]
  untagged : Untagged t
  family : t.restrictAddressFamily = none
  src : ∀ n ∈ t.sourceAddress, WF n
  dst : ∀ n ∈ t.destinationAddress, WF n
  ports : t.sourcePort ≠ [] ∨ t.destinationPort ≠ [] → t.protocol ≠ []
  sports : SPorts t.sourcePort
  dports : SPorts t.destinationPort
  icmpCode : t.icmpCode = []
  options : SOptions t

theorem stables_ok : ∀ e ∈ Sonic.tables.subTokens, e.1 ∈ Sonic.tables.tokens := by decide

/-! ### the parts of a term -/

theorem oneKind_orZero {l : List PortRange} (h : SPorts l) : OneKind (orZero l) := by
  unfold orZero
  split
  · exact .inl (by simp [Sets])
  · rcases h with ⟨h0, h | h⟩
    · refine .inr (.inl fun r hr => ⟨fun hs => h0 ?_, h r hr⟩)
      have : r = (0, 0) := Prod.ext (by rw [hs.1, hs.2]) hs.2
      rw [← this]
      exact hr
    · exact .inr (.inr h)

theorem sport_iff {l : List PortRange} {p : Packet} {x : Nat} (h : SPorts l) (hp : l ≠ [] → p.proto ∈ portProtos) :
    (∃ r ∈ orZero l, IfSet (single r) (fun n => PortIn p x (n, n)) ∧ IfSet (range r) (PortIn p x)) ↔ PortMatch l x := by
  rw [← oport h.1 hp]
  refine exists_congr fun r => and_congr_right fun _ => ?_
  unfold single Sonic.range ofPort
  by_cases h1 : r.1 = r.2
  · by_cases h2 : r.2 = 0
    · simp [h1, h2, ifSet_none]
    · rw [if_neg (fun h => h2 h.2), if_pos h1, if_pos h1, if_neg (fun h => h2 h.2), ifSet_some, ifSet_some]
      have : r = (r.1, r.1) := Prod.ext rfl h1.symm
      conv => rhs; rw [this]
      simp [ifSet_none]
  · rw [if_neg (fun h => h1 h.1), if_neg h1, if_neg h1, if_neg (fun h => h1 h.1)]
    simp [ifSet_none]

theorem saddr_sound {v : Ver} {l : List Net} {w : Ver} {x : Nat} (hw : ∀ n ∈ l, WF n) (hf : hasFamily v l = true)
    (h : ∃ a ∈ orAny (l.filter fun n => n.ver == v), IfSet (ofNet a) fun n => Spec.Flat.Covers n w x) : AddrMatch l [] w x := by
  refine ⟨?_, by simp [Den]⟩
  by_cases h0 : l = []
  · exact .inl h0
  refine .inr ?_
  obtain ⟨a, ha, h⟩ := h
  unfold orAny at ha
  split at ha
  next he =>
    exfalso
    unfold hasFamily at hf
    rw [he] at hf
    simp only [Bool.true_and, Bool.not_not, List.isEmpty_iff, List.filter_eq_nil_iff] at hf he
    obtain ⟨n, ns, rfl⟩ := List.exists_cons_of_ne_nil h0
    have h1 := hf n (by simp)
    have h2 := he n (by simp)
    simp only [bne_iff_ne, ne_eq, beq_iff_eq, Classical.not_not] at h1 h2
    exact h2 h1
  · obtain ⟨n, hn, rfl⟩ := List.mem_map.1 ha
    have hn := (List.mem_filter.1 hn).1
    exact ⟨n, hn, (covers_iff (hw n hn) _ _).1 (h _ rfl)⟩

theorem saddr_complete {v : Ver} {l : List Net} {x : Nat} (hw : ∀ n ∈ l, WF n) (h : AddrMatch l [] v x) :
    hasFamily v l = true ∧ ∃ a ∈ orAny (l.filter fun n => n.ver == v), IfSet (ofNet a) fun n => Spec.Flat.Covers n v x := by
  rcases h.1 with rfl | ⟨n, hn, hm⟩
  · exact ⟨rfl, none, by simp [orAny], ifSet_none⟩
  · have hf : n ∈ l.filter fun n => n.ver == v := List.mem_filter.2 ⟨hn, by simp [hm.1]⟩
    have hne : (l.filter fun n => n.ver == v).isEmpty = false := by
      cases e : l.filter fun n => n.ver == v with
      | nil => rw [e] at hf; cases hf
      | cons => rfl
    refine ⟨by unfold hasFamily; rw [hne]; rfl, some n, ?_, ifSet_some.2 ((covers_iff (hw n hn) _ _).2 hm)⟩
    unfold orAny
    rw [if_neg (by rw [hne]; simp)]
    exact List.mem_map.2 ⟨n, hf, rfl⟩

theorem sproto_key {s : String} {n : Int} (h : protoKey (protoNumber (.str s)) = some n) :
    protoNumber (.str s) = .str s ∧ protoMap.lookup s = some n := by
  unfold protoNumber at h ⊢
  by_cases e : (s == "ipip") = true
  · simp [e, protoKey] at h
  · simp only [e] at h ⊢
    exact ⟨rfl, h⟩

theorem sproto_iff {t : Term} {ps : List Proto} (hs : termProtocols (t.protocol.map .str) = .ok ps)
    (hk : (ps.any fun p => (protoKey p).isNone) = false) (ho : SOptions t) {p : Packet} (hp : Coherent p) :
    (∃ q ∈ protos ps, IfSet (q.bind protoKey) (NumberIs p) ∧
      ((t.option.contains "tcp-established" && decide (q = some (.str "tcp"))) = true →
        p.proto = "tcp" ∧ p.hasOption "tcp-established" = true)) ↔
    OneOf t.protocol p.proto ∧ ∀ o ∈ t.option, p.hasOption o = true := by
  have e := termProtocols_ok hs
  have hkey : ∀ s ∈ t.protocol, ∃ n, protoKey (protoNumber (.str s)) = some n := by
    intro s hm
    have hq : protoNumber (.str s) ∈ ps := by
      rw [e]
      exact List.mem_map.2 ⟨_, List.mem_map.2 ⟨s, hm, rfl⟩, rfl⟩
    have := List.any_eq_false.1 hk _ hq
    cases h : protoKey (protoNumber (.str s)) with
    | none => rw [h] at this; simp at this
    | some n => exact ⟨n, rfl⟩
  have hps : ps = t.protocol.map .str := by
    rw [e, List.map_map]
    refine List.map_congr_left fun s hm => ?_
    obtain ⟨n, hn⟩ := hkey s hm
    exact (sproto_key hn).1
  have hnum : ∀ s ∈ t.protocol, (IfSet (protoKey (.str s)) (NumberIs p) ↔ p.proto = s) := by
    intro s hm
    obtain ⟨n, hn⟩ := hkey s hm
    have := (sproto_key hn).2
    rw [show protoKey (.str s) = protoMap.lookup s from rfl, this, ifSet_some]
    exact numberIs_iff this hp.proto
  by_cases h0 : t.protocol = []
  · have h1 : protos ps = [none] := by rw [hps, h0]; rfl
    have h2 : t.option = [] := ho.resolve_right fun h => h.2.1 h0
    rw [h1, h0, h2]
    simp [OneOf, ifSet_none]
  · have h1 : protos ps = (t.protocol.map .str).map some := by
      unfold protos
      rw [if_neg, hps]
      rw [hps]
      simpa using h0
    rw [h1, List.map_map]
    have hone : OneOf t.protocol p.proto ↔ p.proto ∈ t.protocol := by
      unfold OneOf
      simp [h0]
    rw [hone]
    have step : (∃ q ∈ t.protocol.map (some ∘ .str), IfSet (q.bind protoKey) (NumberIs p) ∧
        ((t.option.contains "tcp-established" && decide (q = some (.str "tcp"))) = true →
          p.proto = "tcp" ∧ p.hasOption "tcp-established" = true)) ↔
        p.proto ∈ t.protocol ∧ ("tcp-established" ∈ t.option → p.proto = "tcp" →
          p.hasOption "tcp-established" = true) := by
      constructor
      · rintro ⟨q, hq, k1, k2⟩
        obtain ⟨s, hm, rfl⟩ := List.mem_map.1 hq
        have := (hnum s hm).1 k1
        subst this
        refine ⟨hm, fun h3 h4 => (k2 ?_).2⟩
        simp [h3, h4]
      · rintro ⟨h3, h4⟩
        refine ⟨_, List.mem_map.2 ⟨_, h3, rfl⟩, (hnum _ h3).2 rfl, fun h5 => ?_⟩
        simp only [Function.comp, Bool.and_eq_true, List.contains_iff_mem, decide_eq_true_eq, Option.some.injEq,
          Proto.str.injEq] at h5
        exact ⟨h5.2, h4 h5.1 h5.2⟩
    rw [step]
    refine and_congr_right fun hm => ?_
    rcases ho with h | ⟨h, _, hq, _⟩
    · rw [h]
      simp
    · constructor
      · intro h2 o ho
        rw [h o ho]
        rcases hq _ hm with h3 | h3
        · exact h2 (h o ho ▸ ho) h3
        · exact hp.udp h3
      · exact fun h2 h3 _ => h2 _ h3

theorem sno_leak {t : Term} {ps : List Proto} (hs : termProtocols (t.protocol.map .str) = .ok ps) (ho : SOptions t) :
    NoLeak (t.option.contains "tcp-established") (protos ps) := by
  have e := termProtocols_ok hs
  unfold NoLeak protos
  split
  · exact List.pairwise_singleton _ _
  · rcases ho with h | ⟨_, _, hq, hpw⟩
    · rw [h]
      refine List.Pairwise.imp (fun {a b} h => ?_) (List.pairwise_of_forall (R := fun _ _ => True) fun _ _ => trivial)
      intro h
      cases h
    · rw [e, List.map_map, List.map_map]
      refine List.pairwise_map.2 (List.Pairwise.imp_of_mem (fun {a b} ha hb h => ?_) hpw)
      intro _ h1
      have hnum : ∀ s, s = "tcp" ∨ s = "udp" → protoNumber (.str s) = .str s := by
        rintro s (rfl | rfl) <;> rfl
      simp only [Function.comp] at h1 ⊢
      rw [hnum a (hq a ha)] at h1
      rw [hnum b (hq b hb)]
      simp only [Option.some.injEq, Proto.str.injEq] at h1 ⊢
      exact h h1

theorem allOrNone_map {α : Type} {l : List α} : AllOrNone (· ≠ none) (if l.isEmpty then [none] else l.map some) := by
  split
  · exact .inr (by simp)
  · exact .inl (by simp)

theorem srule_eq {v : Ver} {fl : Bool} {act : String} {q : Option Proto} {i : Option Nat} {a b : Option Net}
    {c d : PortRange} :
    putDport d (putSport c (putDst b (putSrc a (putIcmp v i (putProto fl q { action := act }))))) =
      { action := act, proto := q.bind protoKey, flags := fl && decide (q = some (.str "tcp")),
        icmp := i.map fun n => (v, n), src := ofNet a, dst := ofNet b, sport := single c, sportRange := Sonic.range c,
        dport := single d, dportRange := Sonic.range d } := by
  rw [putDport_eq, putSport_eq]
  cases q <;> cases i <;> cases a <;> cases b <;> simp [putDst, putSrc, putIcmp, putProto, ofNet, single, Sonic.range]

theorem exists_product6 {A B C D F Q R : Type} {la : List A} {lb : List B} {lc : List C} {ld : List D} {lf : List F}
    {lq : List Q} {a : A → Prop} {b : B → Prop} {c : C → Prop} {d : D → Prop} {f : F → Prop} {q : Q → Prop}
    {r : A → B → C → D → F → Q → R} {P : R → Prop} {E : Prop}
    (h : ∀ x y z w u s, P (r x y z w u s) ↔ E ∧ a x ∧ b y ∧ c z ∧ d w ∧ f u ∧ q s) :
    (∃ m ∈ la.flatMap fun x => lb.flatMap fun y => lc.flatMap fun z => ld.flatMap fun w => lf.flatMap fun u =>
      lq.flatMap fun s => [r x y z w u s], P m) ↔
      E ∧ (∃ x ∈ la, a x) ∧ (∃ y ∈ lb, b y) ∧ (∃ z ∈ lc, c z) ∧ (∃ w ∈ ld, d w) ∧ (∃ u ∈ lf, f u) ∧ ∃ s ∈ lq, q s := by
  constructor
  · rintro ⟨m, hm, hP⟩
    obtain ⟨x, hx, hm⟩ := List.mem_flatMap.1 hm
    obtain ⟨y, hy, hm⟩ := List.mem_flatMap.1 hm
    obtain ⟨z, hz, hm⟩ := List.mem_flatMap.1 hm
    obtain ⟨w, hw, hm⟩ := List.mem_flatMap.1 hm
    obtain ⟨u, hu, hm⟩ := List.mem_flatMap.1 hm
    obtain ⟨s, hs, hm⟩ := List.mem_flatMap.1 hm
    rw [List.mem_singleton.1 hm] at hP
    obtain ⟨h0, h1, h2, h3, h4, h5, h6⟩ := (h ..).1 hP
    exact ⟨h0, ⟨x, hx, h1⟩, ⟨y, hy, h2⟩, ⟨z, hz, h3⟩, ⟨w, hw, h4⟩, ⟨u, hu, h5⟩, ⟨s, hs, h6⟩⟩
  · rintro ⟨h0, ⟨x, hx, h1⟩, ⟨y, hy, h2⟩, ⟨z, hz, h3⟩, ⟨w, hw, h4⟩, ⟨u, hu, h5⟩, ⟨s, hs, h6⟩⟩
    exact ⟨r x y z w u s, List.mem_flatMap.2 ⟨x, hx, List.mem_flatMap.2 ⟨y, hy, List.mem_flatMap.2 ⟨z, hz,
      List.mem_flatMap.2 ⟨w, hw, List.mem_flatMap.2 ⟨u, hu, List.mem_flatMap.2 ⟨s, hs, by simp⟩⟩⟩⟩⟩⟩,
      (h ..).2 ⟨h0, h1, h2, h3, h4, h5, h6⟩⟩

theorem snames_unique {w a b : String} (h1 : (w, a) ∈ Cdb.names) (h2 : (w, b) ∈ Cdb.names) : a = b := by
  simp only [Cdb.names, List.mem_cons, Prod.mk.injEq, List.not_mem_nil, or_false] at h1 h2
  rcases h1 with ⟨rfl, rfl⟩ | ⟨rfl, rfl⟩ <;> rcases h2 with ⟨e, rfl⟩ | ⟨e, rfl⟩ <;> first | rfl | simp at e

/-! ### terms -/

/-- The term after flattening without exclusions. -/
def flat (t : Term) : Term :=
  { t with flattened := true, flattenedSaddr := some t.sourceAddress, flattenedDaddr := some t.destinationAddress,
           flattenedAddr := some t.address }

/-- The conditions of a term that the rules of the family express. -/
theorem smatches {t : Term} (f : SFits t) {p : Packet} :
    Matches t p ↔ (AddrMatch t.sourceAddress [] p.ver p.src ∧ AddrMatch t.destinationAddress [] p.ver p.dst) ∧
      OneOf t.protocol p.proto ∧ (PortMatch t.sourcePort p.sport ∧ PortMatch t.destinationPort p.dport) ∧
      OneOf t.icmpType p.icmpType ∧ ∀ o ∈ t.option, p.hasOption o = true := by
  have un := fun (s : String) {v : Val} => unset (g := Sonic.tables) stables_ok rfl f.active f.keywords s (v := v)
  have b : Basic t := basic_of (g := Sonic.tables) stables_ok rfl (by decide) f.active f.keywords
  have h5 : t.protocolExcept = [] := Cisco.wordsVal_falsy (un "protocol_except" (by simp [attrsOf]) (by decide))
  have h6 : t.sourceAddressExclude = [] := Cisco.listVal_falsy (un "source_address_exclude" (by simp [attrsOf]) (by decide))
  have h7 : t.destinationAddressExclude = [] :=
    Cisco.listVal_falsy (un "destination_address_exclude" (by simp [attrsOf]) (by decide))
  rw [matches_basic b f.untagged (.inl f.family)]
  unfold MatchProto
  rw [h5, h6, h7, f.icmpCode]
  simp [OneOf]

theorem splain {t : Term} (f : SFits t) : t.sourceAddressExclude = [] ∧ t.destinationAddressExclude = [] ∧
    t.addressExclude = [] ∧ t.platform = [] ∧ t.verbatim = [] := by
  have un := fun (s : String) {v : Val} => unset (g := Sonic.tables) stables_ok rfl f.active f.keywords s (v := v)
  have b : Basic t := basic_of (g := Sonic.tables) stables_ok rfl (by decide) f.active f.keywords
  exact ⟨Cisco.listVal_falsy (un "source_address_exclude" (by simp [attrsOf]) (by decide)),
    Cisco.listVal_falsy (un "destination_address_exclude" (by simp [attrsOf]) (by decide)), b.addressExclude,
    Cisco.wordsVal_falsy (un "platform" (by simp [attrsOf]) (by decide)),
    Cisco.listVal_falsy (un "verbatim" (by simp [attrsOf]) (by decide))⟩

theorem icmp_branch {t : Term} {v : Ver} {types : List (Option Nat)} {p : Packet}
    (h : Cisco.icmpTypesOf t v = .ok types) :
    ((∃ i ∈ types, IfSet (i.map fun n => (v, n)) fun i => p.ver = i.1 ∧ (p.icmpType, i.2) ∈ icmpNumbers i.1) →
      OneOf t.icmpType p.icmpType) ∧
    (p.ver = v → OneOf t.icmpType p.icmpType →
      ∃ i ∈ types, IfSet (i.map fun n => (v, n)) fun i => p.ver = i.1 ∧ (p.icmpType, i.2) ∈ icmpNumbers i.1) := by
  obtain ⟨h1, _⟩ := Cisco.icmpTypes_spec h p
  constructor
  · rintro ⟨i, hi, h2⟩
    refine h1.1 ⟨i, hi, ?_⟩
    rintro k rfl
    exact (h2 _ rfl).2
  · intro hv h2
    obtain ⟨i, hi, h3⟩ := h1.2 h2
    refine ⟨i, hi, ?_⟩
    cases i with
    | none => exact ifSet_none
    | some k => exact ifSet_some.2 ⟨hv, h3 k rfl⟩

theorem rest_hits {v : Ver} {t : Term} {ps : List Proto} {act : String} {l : List Rule} (f : SFits t)
    (hs : termProtocols (t.protocol.map .str) = .ok ps)
    (h : convertRest v (flat t) ps act = .ok l) {p : Packet}
    (hp : Coherent p) (a : String) :
    ((∃ r ∈ l, Cdb.Hits r p ∧ r.action = a) → Matches t p ∧ act = a) ∧
    (p.ver = v → Matches t p ∧ act = a → ∃ r ∈ l, Cdb.Hits r p ∧ r.action = a) := by
  unfold convertRest at h
  obtain ⟨types, h1, h⟩ := bind_ok h
  dsimp only [flat] at h
  have h1 : Cisco.icmpTypesOf t v = .ok types := h1
  by_cases k1 : hasFamily v t.sourceAddress = true
  case neg =>
    rw [if_pos (by simpa using k1)] at h
    cases h
    refine ⟨by simp, fun hv ⟨hm, _⟩ => ?_⟩
    subst hv
    exact absurd (saddr_complete f.src ((smatches f).1 hm).1.1).1 k1
  rw [if_neg (by simpa using k1)] at h
  by_cases k2 : hasFamily v t.destinationAddress = true
  case neg =>
    rw [if_pos (by simpa using k2)] at h
    cases h
    refine ⟨by simp, fun hv ⟨hm, _⟩ => ?_⟩
    subst hv
    exact absurd (saddr_complete f.dst ((smatches f).1 hm).1.2).1 k2
  rw [if_neg (by simpa using k2)] at h
  split at h
  · cases h
  next hk =>
  have hk : (ps.any fun p => (protoKey p).isNone) = false := by simpa using hk
  have el := Except.ok.inj h
  have hty : AllOrNone (· ≠ none) types := by
    obtain ⟨_, h2, h3⟩ := Cisco.icmpTypes_spec h1 p
    by_cases h0 : t.icmpType = []
    · rw [h3 h0]
      exact .inr (by simp)
    · refine .inl ?_
      rintro i hi rfl
      exact h2 h0 hi
  rw [explode_spec (oneKind_orZero f.dports) (oneKind_orZero f.sports) (allOrNone_any _) (allOrNone_any _) hty
    (sno_leak hs f.options) allOrNone_map] at el
  have hports : OneOf t.protocol p.proto → t.sourcePort ≠ [] ∨ t.destinationPort ≠ [] → p.proto ∈ portProtos := by
    intro ho hne
    rcases ho with h | h
    · exact absurd h (f.ports hne)
    · exact sane_ports f.sane (splain f).2.2.2.2 hne h
  have hall : (∃ r ∈ l, Cdb.Hits r p ∧ r.action = a) ↔ act = a ∧
      (∃ q ∈ protos ps, IfSet (q.bind protoKey) (NumberIs p) ∧
        ((t.option.contains "tcp-established" && decide (q = some (.str "tcp"))) = true →
          p.proto = "tcp" ∧ p.hasOption "tcp-established" = true)) ∧
      (∃ i ∈ types, IfSet (i.map fun n => (v, n)) fun i => p.ver = i.1 ∧ (p.icmpType, i.2) ∈ icmpNumbers i.1) ∧
      (∃ x ∈ orAny (t.sourceAddress.filter fun n => n.ver == v), IfSet (ofNet x) fun n => Spec.Flat.Covers n p.ver p.src) ∧
      (∃ x ∈ orAny (t.destinationAddress.filter fun n => n.ver == v), IfSet (ofNet x) fun n => Spec.Flat.Covers n p.ver p.dst) ∧
      (∃ r ∈ orZero t.sourcePort, IfSet (single r) (fun n => PortIn p p.sport (n, n)) ∧
        IfSet (Sonic.range r) (PortIn p p.sport)) ∧
      (∃ r ∈ orZero t.destinationPort, IfSet (single r) (fun n => PortIn p p.dport (n, n)) ∧
        IfSet (Sonic.range r) (PortIn p p.dport)) := by
    rw [← el]
    unfold Sonic.block
    refine exists_product6 ?_
    intro x y z w u s
    rw [srule_eq]
    constructor
    · rintro ⟨k, rfl⟩
      exact ⟨rfl, ⟨k.proto, k.flags⟩, k.icmp, k.src, k.dst, ⟨k.sport, k.sportRange⟩, ⟨k.dport, k.dportRange⟩⟩
    · rintro ⟨rfl, ⟨k1, k2⟩, k3, k4, k5, ⟨k6, k7⟩, k8, k9⟩
      exact ⟨⟨k1, k2, k3, k4, k5, k6, k7, k8, k9⟩, rfl⟩
  rw [hall, sproto_iff hs hk f.options hp, smatches f]
  constructor
  · rintro ⟨ha, ⟨c1, c2⟩, c3, c4, c5, c6, c7⟩
    refine ⟨⟨⟨saddr_sound f.src k1 c4, saddr_sound f.dst k2 c5⟩, c1, ⟨?_, ?_⟩, (icmp_branch h1).1 c3, c2⟩, ha⟩
    · exact (sport_iff f.sports fun h => hports c1 (.inl h)).1 c6
    · exact (sport_iff f.dports fun h => hports c1 (.inr h)).1 c7
  · rintro hv ⟨⟨⟨c4, c5⟩, c1, ⟨c6, c7⟩, c3, c2⟩, ha⟩
    refine ⟨ha, ⟨c1, c2⟩, (icmp_branch h1).2 hv c3, ?_, ?_, ?_, ?_⟩
    · subst hv
      exact (saddr_complete f.src c4).2
    · subst hv
      exact (saddr_complete f.dst c5).2
    · exact (sport_iff f.sports fun h => hports c1 (.inl h)).2 c6
    · exact (sport_iff f.dports fun h => hports c1 (.inr h)).2 c7

theorem flattenAll_plain {t : Term} (h1 : t.sourceAddressExclude = []) (h2 : t.destinationAddressExclude = [])
    (h3 : t.addressExclude = []) : flattenAll t = .ok (flat t) := by
  unfold flattenAll
  rw [if_pos (by simp [h1, h2, h3])]
  rfl

theorem sterm_hits {v : Ver} {t t' : Term} {l : List Rule} (f : SFits t) (h : renderTerm v t = .ok (t', l)) {p : Packet}
    (hp : Coherent p) (a : String) :
    ((∃ r ∈ l, Cdb.Hits r p ∧ r.action = a) → Matches t p ∧ ∃ w, t.action = [w] ∧ (w, a) ∈ Cdb.names) ∧
    (p.ver = v → (Matches t p ∧ ∃ w, t.action = [w] ∧ (w, a) ∈ Cdb.names) → ∃ r ∈ l, Cdb.Hits r p ∧ r.action = a) := by
  unfold renderTerm at h
  obtain ⟨ps, h1, h⟩ := bind_ok h
  obtain ⟨t'', h2, h⟩ := bind_ok h
  obtain ⟨l', h3, h⟩ := bind_ok h
  cases h
  obtain ⟨e1, e2, e3, e4, e5⟩ := splain f
  rw [flattenAll_plain e1 e2 e3] at h2
  cases h2
  obtain ⟨w, hw⟩ := f.action
  unfold convert at h3
  rw [show (flat t).action = t.action from rfl, show (flat t).platform = t.platform from rfl,
    show (flat t).protocol = t.protocol from rfl, hw] at h3
  dsimp only at h3
  rw [if_neg (by simp [e4])] at h3
  cases hl : actionMap.lookup w with
  | none => rw [hl] at h3; cases h3
  | some act =>
    rw [hl] at h3
    dsimp only at h3
    have hm : (w, act) ∈ Cdb.names := Cisco.mem_of_lookup' hl
    have hact : (∃ w, t.action = [w] ∧ (w, a) ∈ Cdb.names) ↔ act = a := by
      rw [hw]
      constructor
      · rintro ⟨w', e, h'⟩
        cases e
        exact snames_unique hm h'
      · rintro rfl
        exact ⟨w, rfl, hm⟩
    rw [hact]
    split at h3
    next hi =>
      cases h3
      refine ⟨by simp, fun hv ⟨hmt, _⟩ => ?_⟩
      have ho := ((smatches f).1 hmt).2.1
      rcases hi with ⟨hi, rfl⟩ | ⟨hi, rfl⟩
      · rw [hi] at ho
        have := ho.resolve_left (by simp)
        exact absurd (List.mem_singleton.1 this) (hp.icmp6 hv)
      · rw [hi] at ho
        have := ho.resolve_left (by simp)
        exact absurd (List.mem_singleton.1 this) (hp.icmp4 hv)
    next => exact rest_hits f h1 h3 hp a

theorem srender_again {v w : Ver} {t t' : Term} {l : List Rule} (f : SFits t) (h : renderTerm v t = .ok (t', l)) :
    renderTerm w t' = renderTerm w t := by
  unfold renderTerm at h
  obtain ⟨ps, _, h⟩ := bind_ok h
  obtain ⟨t'', h4, h⟩ := bind_ok h
  obtain ⟨l', _, h⟩ := bind_ok h
  cases h
  obtain ⟨h1, h2, h3, _⟩ := splain f
  have e1 := h4
  rw [flattenAll_plain h1 h2 h3] at e1
  have e2 : flattenAll t' = .ok t' := by
    cases e1
    exact flattenAll_plain (t := flat t) h1 h2 h3
  have e3 : t'.protocol = t.protocol := by
    cases e1
    rfl
  unfold renderTerm
  rw [e2, h4, e3]

/-- The terms of a filter that are rendered faithfully or not rendered: those named for other platforms. -/
def SOk (r : OTerm) : Prop :=
  r.expired = false → SFits r.term ∨ (r.term.platform ≠ [] ∧ "sonic" ∉ r.term.platform)

theorem fam_hits {t : Term} (f : SFits t) {p : Packet} (hp : Coherent p) (a : String) : ∀ {vs : List Ver} {u : Term}
    {l : List Rule}, (∀ w, renderTerm w u = renderTerm w t) → famLoop u vs = .ok l →
    ((∃ r ∈ l, Cdb.Hits r p ∧ r.action = a) → Matches t p ∧ ∃ w, t.action = [w] ∧ (w, a) ∈ Cdb.names) ∧
    (p.ver ∈ vs → (Matches t p ∧ ∃ w, t.action = [w] ∧ (w, a) ∈ Cdb.names) → ∃ r ∈ l, Cdb.Hits r p ∧ r.action = a)
  | [], _, _, _, h => by
    cases h
    exact ⟨by simp, by simp⟩
  | v :: vs, u, l, hu, h => by
    rw [famLoop] at h
    obtain ⟨q, h1, h⟩ := bind_ok h
    obtain ⟨r, h2, h⟩ := bind_ok h
    cases h
    rw [hu v] at h1
    have h3 := sterm_hits f (show renderTerm v t = .ok (q.1, q.2) from h1) hp a
    have h4 := fam_hits f hp a (u := q.1) (fun w => srender_again f (show renderTerm v t = .ok (q.1, q.2) from h1)) h2
    constructor
    · rintro ⟨x, hx, h5⟩
      rcases List.mem_append.1 hx with hx | hx
      · exact h3.1 ⟨x, hx, h5⟩
      · exact h4.1 ⟨x, hx, h5⟩
    · intro hv hm
      rcases List.mem_cons.1 hv with hv | hv
      · obtain ⟨x, hx, h5⟩ := h3.2 hv hm
        exact ⟨x, List.mem_append_left _ hx, h5⟩
      · obtain ⟨x, hx, h5⟩ := h4.2 hv hm
        exact ⟨x, List.mem_append_right _ hx, h5⟩

theorem render_other {t t' : Term} {v : Ver} {l : List Rule} (hp : t.platform ≠ [] ∧ "sonic" ∉ t.platform)
    (h : renderTerm v t = .ok (t', l)) : l = [] ∧ t'.platform ≠ [] ∧ "sonic" ∉ t'.platform := by
  unfold renderTerm at h
  obtain ⟨ps, _, h⟩ := bind_ok h
  obtain ⟨t'', h2, h⟩ := bind_ok h
  obtain ⟨l', h3, h⟩ := bind_ok h
  cases h
  have e : t'.platform = t.platform := by
    obtain ⟨sa, da, ad, fs, fd, fa, rfl, _⟩ := flattenAll_shape h2
    rfl
  rw [e]
  refine ⟨?_, hp⟩
  unfold convert at h3
  split at h3
  · cases h3
    rfl
  · rw [if_pos (by rw [e]; simpa using hp)] at h3
    cases h3
    rfl

theorem fam_other : ∀ {vs : List Ver} {t : Term} {l : List Rule}, t.platform ≠ [] ∧ "sonic" ∉ t.platform →
    famLoop t vs = .ok l → l = []
  | [], _, _, _, h => by
    cases h
    rfl
  | v :: vs, t, l, hp, h => by
    rw [famLoop] at h
    obtain ⟨q, h1, h⟩ := bind_ok h
    obtain ⟨r, h2, h⟩ := bind_ok h
    cases h
    obtain ⟨h3, h4⟩ := render_other hp (show renderTerm v t = .ok (q.1, q.2) from h1)
    rw [h3, fam_other h4 h2]
    rfl

theorem sone_hits {vs : List Ver} {r : OTerm} {l : List Rule} (ho : SOk r) (h : oneTerm vs r = .ok l) {p : Packet}
    (hp : Coherent p) (hv : p.ver ∈ vs) (a : String) :
    (∃ x ∈ l, Cdb.Hits x p ∧ x.action = a) ↔ Wants "sonic" Cdb.names r.expired r.term p a := by
  unfold oneTerm at h
  unfold Wants
  split at h
  next e =>
    cases h
    simp [e]
  next e =>
    have e : r.expired = false := by simpa using e
    rcases ho e with f | f
    · obtain ⟨h1, h2⟩ := fam_hits f hp a (fun _ => rfl) h
      have h3 : "sonic" ∉ r.term.platformExclude := f.active.2
      constructor
      · intro h
        exact ⟨⟨e, .inl (splain f).2.2.2.1, h3⟩, h1 h⟩
      · exact fun h => h2 hv h.2
    · rw [fam_other f h]
      refine iff_of_false (by simp) ?_
      rintro ⟨⟨_, h1, _⟩, _⟩
      rcases h1 with h1 | h1
      · exact f.1 h1
      · exact f.2 h1

theorem sterms_blocks {vs : List Ver} : ∀ {ts : List OTerm} {l : List Rule}, termsLoop vs ts = .ok l →
    ∃ bs : List (OTerm × List Rule), bs.map Prod.fst = ts ∧ l = bs.flatMap Prod.snd ∧
      ∀ b ∈ bs, oneTerm vs b.1 = .ok b.2
  | [], _, h => by
    cases h
    exact ⟨[], rfl, rfl, by simp⟩
  | r :: rs, l, h => by
    rw [termsLoop] at h
    obtain ⟨a, h1, h⟩ := bind_ok h
    obtain ⟨q, h2, h⟩ := bind_ok h
    cases h
    obtain ⟨bs, rfl, e, h3⟩ := sterms_blocks h2
    refine ⟨(r, a) :: bs, rfl, by rw [List.flatMap_cons, e], ?_⟩
    intro b hb
    rcases List.mem_cons.1 hb with rfl | hb
    · exact h1
    · exact h3 b hb

/-! ### filters -/

theorem families_iff {f : Sonic.Filter} (ho : f.order.Perm [.v4, .v6]) {v : Ver} :
    v ∈ families f ↔ Cdb.Names f.options v := by
  unfold families Cdb.Names
  rw [List.mem_filter, ho.mem_iff]
  cases v <;> simp

theorem filters_last : ∀ {pre post : List Sonic.Filter} {f : Sonic.Filter} {k : Nat} {d d' : Dict},
    (∀ g ∈ post, families g = []) → families f ≠ [] → filtersLoop k d (pre ++ f :: post) = .ok d' →
    ∃ name opts k' rs q, f.options = name :: opts ∧ termsLoop (families f) f.terms = .ok rs ∧
      number name k' [] rs = .ok q ∧ Cdb.seen d' = q.2
  | [], post, f, k, d, d', hpost, hf, h => by
    rw [List.nil_append, filtersLoop] at h
    split at h
    · cases h
    next name opts e =>
    rw [if_neg (by simpa using hf)] at h
    obtain ⟨rs, h1, h⟩ := bind_ok h
    obtain ⟨q, h2, h⟩ := bind_ok h
    refine ⟨name, opts, k, rs, q, e, h1, h2, ?_⟩
    have : ∀ {post : List Sonic.Filter} {k : Nat} {d : Dict}, (∀ g ∈ post, families g = []) →
        filtersLoop k d post = .ok d' → d' = d := by
      intro post
      induction post with
      | nil =>
        intro k d _ h
        cases h
        rfl
      | cons g gs ih =>
        intro k d hg h
        rw [filtersLoop] at h
        split at h
        · cases h
        · rw [if_pos (by simp [hg g (by simp)])] at h
          exact ih (fun x hx => hg x (List.mem_cons_of_mem _ hx)) h
    rw [this hpost h]
    cases d <;> rfl
  | g :: gs, post, f, k, d, d', hpost, hf, h => by
    rw [List.cons_append, filtersLoop] at h
    split at h
    · cases h
    · split at h
      · exact filters_last hpost hf h
      · obtain ⟨rs, h1, h⟩ := bind_ok h
        obtain ⟨q, h2, h⟩ := bind_ok h
        exact filters_last hpost hf h

/-- **C77** (partial): whatever the order in which the families are looked up, the rules that count decide about packets of
the families named in the header like the terms of the last filter that names a family, if they are as in `SFits` or meant
for other platforms. Missing: the filters before, and other terms, see the refutations. -/
theorem C77_partial {pre post : List Sonic.Filter} {f : Sonic.Filter} {d : Dict}
    (h : translate (pre ++ f :: post) = .ok d) (ho : f.order.Perm [.v4, .v6])
    (hpost : ∀ g ∈ post, g.order.Perm [.v4, .v6] ∧ ∀ v, ¬ Cdb.Names g.options v)
    (hf : ∀ r ∈ f.terms, SOk r) {p : Packet} (hp : Coherent p) (hv : Cdb.Names f.options p.ver) (a : String) :
    Cdb.Decides d p a ↔ Cdb.PolicyDecides f.terms p a := by
  have hv' := (families_iff ho).2 hv
  obtain ⟨name, opts, k, rs, q, _, h1, h2, e⟩ := filters_last
    (fun g hg => List.eq_nil_iff_forall_not_mem.2 fun v h => (hpost g hg).2 v ((families_iff (hpost g hg).1).1 h))
    (fun h0 => by rw [h0] at hv'; cases hv') h
  obtain ⟨n1, n2, n3⟩ := number_spec (show number name k [] rs = .ok (q.1, q.2) from h2) (by simp)
  rw [List.nil_append] at n2
  obtain ⟨bs, e1, rfl, h3⟩ := sterms_blocks h1
  unfold Cdb.Decides Cdb.PolicyDecides
  rw [e, n2, ← e1]
  have hpw : (numbered name k (bs.flatMap Prod.snd)).Pairwise fun e f => e.2.priority > f.2.priority := by
    by_cases h0 : bs.flatMap Prod.snd = []
    · rw [h0]
      exact .nil
    · exact numbered_pairwise (n1 ▸ n3 h0)
  rw [Lemmas.best_first (fun a b h1 h2 => by omega) hpw]
  rw [← Lemmas.first_blocks (hit := fun (x : Rule) a => Cdb.Hits x p ∧ x.action = a) ?_ ?_]
  · conv => rhs; rw [← numbered_rule (rs := bs.flatMap Prod.snd) (k := k) (name := name)]
    exact (Lemmas.first_map (f := fun e : String × Entry => e.2.rule)
      (want' := fun (x : Rule) a => Cdb.Hits x p ∧ x.action = a)
      (want := fun (e : String × Entry) a => Cdb.Hits e.2.rule p ∧ e.2.rule.action = a) fun t _ w => Iff.rfl).symm
  · rintro r x y ⟨_, _, w, e, h1⟩ ⟨_, _, w', e', h2⟩
    rw [e] at e'
    cases e'
    exact snames_unique h1 h2
  · intro b hb w
    exact sone_hits (hf b.1 (by rw [← e1]; exact List.mem_map.2 ⟨b, hb, rfl⟩)) (h3 b hb) hp hv' w

/-! ### C78 -/

theorem last_part {x : Char} {a b c d : List Char} (h : a ++ x :: b = c ++ x :: d) (hb : x ∉ b) (hd : x ∉ d) : b = d := by
  rcases List.append_eq_append_iff.1 h with ⟨zs, rfl, e⟩ | ⟨zs, rfl, e⟩
  · cases zs with
    | nil => simpa using e
    | cons z zs =>
      simp only [List.cons_append, List.cons.injEq] at e
      exact absurd (by rw [e.2]; simp) hb
  · cases zs with
    | nil => simpa using e.symm
    | cons z zs =>
      simp only [List.cons_append, List.cons.injEq] at e
      exact absurd (by rw [e.2]; simp) hd

theorem rule_name_inj {n m : String} {i j : Nat} (h : n ++ "|RULE_" ++ toString i = m ++ "|RULE_" ++ toString j) : i = j := by
  have h := congrArg String.toList h
  simp only [String.toList_append] at h
  have e : "|RULE_".toList = ['|', 'R', 'U', 'L', 'E'] ++ ['_'] := rfl
  rw [e] at h
  simp only [← List.append_assoc] at h
  rw [List.append_assoc, List.append_assoc (bs := ['_'])] at h
  have hd : ∀ k : Nat, (toString k).toList = Nat.toDigits 10 k := fun k => Nat.toList_repr
  have := last_part (x := '_') h (by rw [hd]; exact Nat.underscore_not_in_toDigits)
    (by rw [hd]; exact Nat.underscore_not_in_toDigits)
  exact Nat.repr_inj.1 (String.toList_inj.1 this)

/-- The entry has the number and belongs to a filter. -/
def Numbered (fs : List Sonic.Filter) (e : String × Entry) (j : Nat) : Prop :=
  0 < j ∧ e.2.priority + 10 * j = 65536 ∧
    ∃ f ∈ fs, ∃ name rest, f.options = name :: rest ∧ e.1 = name ++ "|RULE_" ++ toString (10 * j)

theorem numbered_all {all : List Sonic.Filter} : ∀ {fs : List Sonic.Filter} {k : Nat} {d d' : Dict},
    (∀ f ∈ fs, f ∈ all) → filtersLoop k d fs = .ok d' →
    ((Cdb.everything d).Pairwise fun e f => e.2.priority > f.2.priority ∧ e.1 ≠ f.1) →
    (∀ e ∈ Cdb.everything d, ∃ j, j ≤ k ∧ Numbered all e j) → (Cdb.direct d = [] ) →
    ((Cdb.everything d').Pairwise fun e f => e.2.priority > f.2.priority ∧ e.1 ≠ f.1) ∧
      ∀ e ∈ Cdb.everything d', ∃ j, Numbered all e j
  | [], k, d, d', _, h, h1, h2, _ => by
    cases h
    exact ⟨h1, fun e he => (h2 e he).imp fun j h => h.2⟩
  | f :: fs, k, d, d', hall, h, h1, h2, h3 => by
    rw [filtersLoop] at h
    split at h
    · cases h
    next name opts eo =>
    split at h
    · exact numbered_all (fun g hg => hall g (List.mem_cons_of_mem _ hg)) h h1 h2 h3
    · obtain ⟨rs, _, h⟩ := bind_ok h
      obtain ⟨q, h4, h⟩ := bind_ok h
      obtain ⟨n1, n2, n3⟩ := number_spec (show number name k [] rs = .ok (q.1, q.2) from h4) (by simp)
      rw [List.nil_append] at n2
      have e : Cdb.everything (d.put q.2) = Cdb.everything d ++ numbered name k rs := by
        cases d with
        | rules l =>
          have : l = [] := h3
          subst this
          simp [Dict.put, Cdb.everything, n2]
        | wrap i l =>
          have : l = [] := h3
          subst this
          simp [Dict.put, Cdb.everything, n2]
      have hnum : ∀ e ∈ numbered name k rs, ∃ j, k < j ∧ j ≤ q.1 ∧ Numbered all e j := by
        intro e he
        obtain ⟨j, k1, k2, k3, k4⟩ := numbered_mem he
        have hne : rs ≠ [] := by
          rintro rfl
          cases he
        have := n3 hne
        exact ⟨j, k1, by omega, by omega, by omega, f, hall f (by simp), name, opts, eo, k3⟩
      refine numbered_all (fun g hg => hall g (List.mem_cons_of_mem _ hg)) h ?_ ?_ (by cases d <;> rfl)
      · rw [e, List.pairwise_append]
        refine ⟨h1, ?_, ?_⟩
        · by_cases h0 : rs = []
          · subst h0
            exact .nil
          · have hp := numbered_pairwise (name := name) (n1 ▸ n3 h0)
            refine List.Pairwise.imp_of_mem (fun {x y} hx hy hlt => ⟨hlt, fun he => ?_⟩) hp
            obtain ⟨i, _, _, _, i1, _, _, _, _, _, i2⟩ := hnum x hx
            obtain ⟨j, _, _, _, j1, _, _, _, _, _, j2⟩ := hnum y hy
            rw [i2, j2] at he
            have := rule_name_inj he
            omega
        · intro x hx y hy
          obtain ⟨i, i0, _, i1, _, _, _, _, _, i2⟩ := h2 x hx
          obtain ⟨j, j0, _, _, j1, _, _, _, _, _, j2⟩ := hnum y hy
          refine ⟨by omega, fun he => ?_⟩
          rw [i2, j2] at he
          have := rule_name_inj he
          omega
      · intro x hx
        rw [e] at hx
        rcases List.mem_append.1 hx with hx | hx
        · obtain ⟨i, i0, i1⟩ := h2 x hx
          exact ⟨i, by omega, i1⟩
        · obtain ⟨j, j0, j1, j2⟩ := hnum x hx
          exact ⟨j, j1, j2⟩

/-- **C78**: whatever the filters and terms, the priorities of the rules of the output fall strictly from rule to rule and
none is negative, and no two rules have the same name; a rule is named after its filter and its number, ten times which is
missing from its priority to 65536. -/
theorem C78_numbers {fs : List Sonic.Filter} {d : Dict} (h : translate fs = .ok d) :
    ((Cdb.everything d).Pairwise fun e f => e.2.priority > f.2.priority ∧ e.1 ≠ f.1) ∧
    ∀ e ∈ Cdb.everything d, ∃ j, 0 < j ∧ e.2.priority + 10 * j = 65536 ∧
      ∃ f ∈ fs, ∃ name rest, f.options = name :: rest ∧ e.1 = name ++ "|RULE_" ++ toString (10 * j) :=
  numbered_all (fun _ h => h) h .nil (by simp [Cdb.everything]) rfl

end Verif.Props
