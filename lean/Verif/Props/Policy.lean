import Verif.Lemmas.Shading
import Verif.Lemmas.Cleanup
import Verif.Props.Nacaddr

/-!
Property theorems C13-C18, C20, C21: capirca/lib/policy.py.
-/

namespace Verif.Props
open Verif Verif.Spec Verif.Policy

instance (l : List (Nat × Nat)) (x : Nat) : Decidable (PMem l x) := by unfold PMem; infer_instance
instance (l : List (Nat × Nat)) : Decidable (PWF l) := by unfold PWF; infer_instance
instance (i e : List Net) (v : Ver) (x : Nat) : Decidable (AddrMatch i e v x) := by
  unfold AddrMatch; infer_instance
instance (l : List (Nat × Nat)) (x : Nat) : Decidable (PortMatch l x) := by unfold PortMatch; infer_instance
instance {α : Type} [DecidableEq α] (l : List α) (x : α) : Decidable (OneOf l x) := by
  unfold OneOf; infer_instance
instance (l : List Nat) (x : Nat) : Decidable (RangeMatch l x) := by
  unfold RangeMatch; split <;> infer_instance
instance (t : Term) (p : Packet) : Decidable (MatchAddrs t p) := by unfold MatchAddrs; infer_instance
instance (t : Term) (p : Packet) : Decidable (MatchPorts t p) := by unfold MatchPorts; infer_instance
instance (t : Term) (p : Packet) : Decidable (MatchProto t p) := by unfold MatchProto; infer_instance
instance (t : Term) (p : Packet) : Decidable (MatchPrefixes t p) := by unfold MatchPrefixes; infer_instance
instance (t : Term) (p : Packet) : Decidable (MatchMisc t p) := by unfold MatchMisc; infer_instance
instance (t : Term) (p : Packet) : Decidable (MatchRest t p) := by unfold MatchRest; infer_instance
instance (t : Term) : Decidable (Terminal t) := by unfold Terminal; infer_instance
instance (t : Term) (p : Packet) : Decidable (Matches t p) := by unfold Matches; infer_instance

/-! ### C13 -/

/-- C13: `CollapsePortList` keeps the set of ports, returns non-empty ranges, and its result is
sorted (both ends ascending, no range inside another). -/
theorem C13_ports_denotation (l : List PortRange) (hw : PWF l) :
    SamePorts (collapsePortList l) l ∧ PWF (collapsePortList l) ∧
    (collapsePortList l).Pairwise (fun a b => a.1 ≤ b.1 ∧ a.2 < b.2) := by
  obtain ⟨h1, h2, h3⟩ := collapsePortList_spec l hw
  exact ⟨h2, h1, h3⟩

/-- C13 (partial): no list of ranges covering the same ports is shorter, provided no range starts
exactly at the last port of another and extends beyond it. Missing: such touching ranges, for which
the claim is false. -/
theorem C13_minimal_partial (l m : List PortRange) (hw : PWF l) (hm : PWF m)
    (hH : ∀ p ∈ l, ∀ q ∈ l, p.2 = q.1 → q.2 ≤ p.2) (h : SamePorts m l) :
    (collapsePortList l).length ≤ m.length := by
  obtain ⟨h1, h2, _⟩ := collapsePortList_spec l hw
  exact gap_minimal (collapsePortList_gap l hw hH) h1 hm (fun x => (h2 x).trans (h x).symm)

/-- C13 refuted: `10-20, 20-30` is returned unchanged although `10-30` covers the same ports. -/
theorem C13_refuted : ∃ l m : List PortRange, PWF l ∧ PWF m ∧ SamePorts m l ∧
    m.length < (collapsePortList l).length := by
  refine ⟨[(10, 20), (20, 30)], [(10, 30)], by decide, by decide, ?_, by decide⟩
  intro x
  simp only [PMem, List.mem_cons, List.not_mem_nil, or_false, exists_eq_or_imp, exists_eq_left]
  omega

example : PWF [(22, 30), (80, 80), (10, 20), (81, 90), (15, 21)] ∧
    (∀ p ∈ [(22, 30), (80, 80), (10, 20), (81, 90), (15, 21)],
      ∀ q ∈ [(22, 30), (80, 80), (10, 20), (81, 90), (15, 21)], p.2 = q.1 → q.2 ≤ p.2) ∧
    collapsePortList [(22, 30), (80, 80), (10, 20), (81, 90), (15, 21)] = [(10, 30), (80, 90)] := by
  decide

/-! ### C14 -/

/-- C14: a positive answer of `CheckPortIsContained` is sound. -/
theorem C14_port_contained_sound (sup sub : List PortRange) (hs : sup ≠ [])
    (h : checkPortIsContained sup sub = true) : sub ≠ [] ∧ ∀ x, PMem sub x → PMem sup x :=
  checkPort_sound hs h

/-- C14: on supersets whose ranges are separated by gaps the answer is exact. -/
theorem C14_port_contained_exact (sup sub : List PortRange) (hs : sup ≠ []) (hw : PWF sup) (hsub : PWF sub)
    (hg : sup.Pairwise (fun a b => a.2 + 1 < b.1)) :
    checkPortIsContained sup sub = true ↔ sub ≠ [] ∧ ∀ x, PMem sub x → PMem sup x :=
  ⟨checkPort_sound hs, fun h => checkPort_complete hg hw hsub h.1 h.2⟩

/-- The empty superset means "any port": the answer is always positive. -/
theorem C14_empty_superset (sub : List PortRange) : checkPortIsContained [] sub = true := rfl

example : [(10, 20), (22, 30)].Pairwise (fun a b : PortRange => a.2 + 1 < b.1) ∧
    checkPortIsContained [(10, 20), (22, 30)] [(12, 13), (30, 30)] = true ∧
    checkPortIsContained [(10, 20), (22, 30)] [(12, 22)] = false := by decide

/-! ### C15 -/

/-- C15 (partial): if `t in s` holds, every packet matching `t` matches `s`, for terms in the
fragment `Checkable`: the prior term `s` either has no excludes, or every address field it sets has an
exclude that can be removed exactly and leaves something; it has no more than one kind of
exception/option value (or the other term repeats them); fragment offsets are proper ranges, hop limits
end no later than the other term's, packet lengths are those of the other term; and it uses none of the
conditions the test never looks at; `t` names one protocol (or only protocols of `s`). `t` may
have excludes, and both may have any addresses, ports, prefix lists, tags, ICMP and zone fields.
Missing: the rest, where the claim is false (see the refutations). -/
theorem C15_contains_sound_partial (s t : Term) (hc : Checkable s t) (ht : Fresh t) (wt : AddrsWF t)
    (h : contains s t = .ok true) (p : Packet) (hm : Matches t p) : Matches s p :=
  contains_sound h hc ht wt hm

/-- A prior term for the examples. -/
def exPrior : Term :=
  { name := "allow-web".toList, action := ["accept"], protocol := ["tcp"],
    sourceAddress := [ip4 10 0 0 0 8, ip6 0x20 8], destinationPort := [(80, 90), (443, 443)] }

/-- A term shaded by `exPrior`; it has an exclude. -/
def exShaded : Term :=
  { name := "allow-some".toList, action := ["accept"], protocol := ["tcp"],
    sourceAddress := [ip4 10 0 0 0 9], sourceAddressExclude := [ip4 10 1 0 0 16],
    destinationPort := [(81, 82)] }

theorem exPrior_checkable : Checkable exPrior exShaded where
  fresh := ⟨rfl, rfl, rfl, rfl⟩
  wf := by constructor <;> decide
  verbatim := rfl
  srcField := .inl ⟨rfl, rfl, rfl⟩
  dstField := .inl ⟨rfl, rfl, rfl⟩
  addrField := .inl ⟨rfl, rfl, rfl⟩
  protoOrExcept := .inr rfl
  proto := .inl (by decide)
  protoExcept := .inl (by decide)
  option := .inl (by decide)
  fcExcept := .inl (by decide)
  dstTag := fun _ => rfl
  fragment := .inl rfl
  hopLimit := .inl rfl
  packetLength := .inl rfl
  rest := fun _ => ⟨.inl rfl, .inl rfl, .inl rfl, .inl rfl, List.not_mem_nil, .inl rfl, .inl rfl, .inl rfl, .inl rfl,
    fun _ h => nomatch h⟩

example : Checkable exPrior exShaded ∧ Fresh exShaded ∧ AddrsWF exShaded :=
  ⟨exPrior_checkable, ⟨rfl, rfl, rfl, rfl⟩, by constructor <;> decide⟩
example : contains exPrior exShaded = .ok true := by decide +kernel
example : Matches exShaded { proto := "tcp", src := 10 * 2 ^ 24, dport := 81 } := by decide +kernel

/-- A prior term with an exclude and a fragment-offset range. -/
def exPrior2 : Term :=
  { name := "p".toList, action := ["accept"], sourceAddress := [ip4 10 0 0 0 8],
    sourceAddressExclude := [ip4 10 1 0 0 16], fragmentOffset := [1, 100] }

/-- A term shaded by `exPrior2`. -/
def exShaded2 : Term :=
  { name := "s".toList, action := ["accept"], sourceAddress := [ip4 10 2 0 0 16],
    fragmentOffset := [5, 100] }

theorem exPrior2_checkable : Checkable exPrior2 exShaded2 where
  fresh := ⟨rfl, rfl, rfl, rfl⟩
  wf := by constructor <;> decide
  verbatim := rfl
  srcField := .inr (.inr ⟨by decide, by unfold Disjoint; exact List.pairwise_singleton _ _, by decide,
    by decide, .v4, 10 * 2 ^ 24, by decide +kernel, by decide +kernel⟩)
  dstField := .inr (.inl ⟨rfl, rfl⟩)
  addrField := .inr (.inl ⟨rfl, rfl⟩)
  protoOrExcept := .inr rfl
  proto := .inl (by decide)
  protoExcept := .inl (by decide)
  option := .inl (by decide)
  fcExcept := .inl (by decide)
  dstTag := fun _ => rfl
  fragment := .inr ⟨1, 100, 5, 100, by decide, by decide, rfl, rfl⟩
  hopLimit := .inl rfl
  packetLength := .inl rfl
  rest := fun _ => ⟨.inl rfl, .inl rfl, .inl rfl, .inl rfl, List.not_mem_nil, .inl rfl, .inl rfl, .inl rfl, .inl rfl,
    fun _ h => nomatch h⟩

example : contains exPrior2 exShaded2 = .ok true := by decide +kernel

/-- C15 refuted: a term that is reported as contained matches a packet that the prior term does not
match. -/
def C15Bad (s t : Term) (p : Packet) : Prop :=
  contains s t = .ok true ∧ Matches t p ∧ ¬ Matches s p

/-- C15 refuted: a TCP-only term "contains" a TCP+UDP term (arguments of the protocol test are
swapped). -/
theorem C15_refuted_protocol : ∃ s t p, C15Bad s t p :=
  ⟨{ protocol := ["tcp"] }, { protocol := ["tcp", "udp"] }, { proto := "udp" },
    by decide +kernel, by decide, by decide⟩

/-- C15 refuted: `protocol-except:: tcp udp` "contains" `protocol-except:: tcp`. -/
theorem C15_refuted_protocol_except : ∃ s t p, C15Bad s t p :=
  ⟨{ protocolExcept := ["tcp", "udp"] }, { protocolExcept := ["tcp"] }, { proto := "udp" },
    by decide +kernel, by decide, by decide⟩

/-- C15 refuted: a prior term whose destination has an exclude is treated as if it had no source
restriction. -/
theorem C15_refuted_exclude : ∃ s t p, C15Bad s t p :=
  ⟨{ sourceAddress := [ip4 10 0 0 0 8], destinationAddress := [ip4 11 0 0 0 8],
     destinationAddressExclude := [ip4 11 0 0 0 9] },
   { sourceAddress := [ip4 12 0 0 0 8], destinationAddress := [ip4 11 128 0 0 9] },
   { src := 12 * 2 ^ 24, dst := 11 * 2 ^ 24 + 128 * 2 ^ 16 },
    by decide +kernel, by decide, by decide⟩

/-- C15 refuted: a prior term whose source is completely excluded (it matches nothing) "contains"
everything. -/
theorem C15_refuted_full_exclude : ∃ s t p, C15Bad s t p :=
  ⟨{ sourceAddress := [ip4 10 0 0 0 8], sourceAddressExclude := [ip4 10 0 0 0 8] },
   { sourceAddress := [ip4 12 0 0 0 8] }, { src := 12 * 2 ^ 24 },
    by decide +kernel, by decide, by decide⟩

/-- C15 refuted: options are conjunctive, but `option:: A B` "contains" `option:: A`. -/
theorem C15_refuted_option : ∃ s t p, C15Bad s t p :=
  ⟨{ option := ["initial", "rst"] }, { option := ["rst"] }, { hasOption := fun o => o == "rst" },
    by decide +kernel, by decide, by decide⟩

/-- C15 refuted: packet lengths, hop limits and fragment offsets are compared the wrong way. -/
theorem C15_refuted_packet_length : ∃ s t p, C15Bad s t p :=
  ⟨{ packetLength := [100] }, { packetLength := [50] }, { packetLength := 50 },
    by decide +kernel, by decide, by decide⟩

/-- C15 refuted: hop limits. -/
theorem C15_refuted_hop_limit : ∃ s t p, C15Bad s t p :=
  ⟨{ hopLimit := [5] }, { hopLimit := [3] }, { hopLimit := 3 }, by decide +kernel, by decide, by decide⟩

/-- C15 refuted: conditions such as TTL are not compared at all. -/
theorem C15_refuted_unchecked : ∃ s t p, C15Bad s t p :=
  ⟨{ ttl := some 10 }, { ttl := some 20 }, { ttl := 20 }, by decide +kernel, by decide, by decide⟩

/-! ### C16 -/

/-- C16: when all ordered pairs of terms can be compared, building the policy with shade checking
raises `ShadingError` exactly if some term is contained in an earlier term without `next`. -/
theorem C16_shading_error_iff (ts : List Term) (h : Comparable ts) :
    detectShading ts = .error (.raised "ShadingError") ↔
      ∃ a p b t c, ts = a ++ p :: (b ++ t :: c) ∧ contains p t = .ok true ∧ "next" ∉ p.action :=
  (detectShading_spec ts h).1

/-- C16: and otherwise it succeeds. -/
theorem C16_shading_ok (ts : List Term) (h : Comparable ts)
    (hn : ¬ ∃ a p b t c, ts = a ++ p :: (b ++ t :: c) ∧ contains p t = .ok true ∧ "next" ∉ p.action) :
    ∃ ts', detectShading ts = .ok ts' := by
  obtain ⟨ts', h', _⟩ := (detectShading_spec ts h).2 hn
  exact ⟨ts', h'⟩

/-- C16: deleting a term that an earlier term without `next` really covers changes no first-match
decision. -/
theorem C16_delete_covered (a b c : List Term) (s t : Term) (p : Packet) (hs : "next" ∉ s.action)
    (hc : Matches t p → Matches s p) (u : Term) :
    FirstMatch (a ++ s :: (b ++ t :: c)) p u ↔ FirstMatch (a ++ s :: (b ++ c)) p u :=
  firstMatch_delete hs hc u

/-- C15/C16 together: in the sound fragment, deleting the reported term is harmless. -/
theorem C16_delete_reported_partial (a b c : List Term) (s t : Term) (hc : Checkable s t) (ht : Fresh t)
    (wt : AddrsWF t) (h : contains s t = .ok true) (hs : "next" ∉ s.action) (p : Packet) (u : Term) :
    FirstMatch (a ++ s :: (b ++ t :: c)) p u ↔ FirstMatch (a ++ s :: (b ++ c)) p u :=
  firstMatch_delete hs (fun hm => contains_sound h hc ht wt hm) u

example : (detectShading [exPrior, { protocol := ["udp"], action := ["deny"] }, exShaded] matches
      .error (.raised "ShadingError")) = true ∧
    (detectShading [{ exPrior with action := ["next"] }, exShaded] matches .ok _) = true := by
  decide +kernel

example : Comparable [exPrior, exShaded] ∧ FirstMatch [exPrior, exShaded]
    { proto := "tcp", src := 10 * 2 ^ 24, dport := 81 } exPrior := by
  refine ⟨?_, [], [exShaded], rfl, by decide +kernel, by decide +kernel, by simp⟩
  refine List.pairwise_cons.2 ⟨?_, List.pairwise_singleton ..⟩
  intro t ht
  rw [List.mem_singleton] at ht
  subst ht
  exact ⟨true, by decide +kernel⟩

/-! ### C17 -/

/-- C17 (partial): running the shading check leaves what every term matches unchanged, for terms
none of whose include lists is completely excluded. Missing: completely excluded lists, where the
claim is false. -/
theorem C17_shading_preserves_partial (ts ts' : List Term) (h : detectShading ts = .ok ts')
    (hw : ∀ t ∈ ts, AddrsWF t)
    (hn : ∀ t ∈ ts, NotFullyExcluded t.sourceAddress t.sourceAddressExclude ∧
      NotFullyExcluded t.destinationAddress t.destinationAddressExclude ∧
      NotFullyExcluded t.address t.addressExclude) :
    All₂ (fun t t' => ∀ p, Matches t' p ↔ Matches t p) ts ts' := by
  have hs := detectShading_ok h
  clear h
  induction hs with
  | nil => exact .nil
  | @cons t t' as bs h1 _ ih =>
    refine .cons ?_ (ih (fun t ht => hw t (List.mem_cons_of_mem _ ht))
      (fun t ht => hn t (List.mem_cons_of_mem _ ht)))
    intro p
    rcases h1 with rfl | ⟨_, h1⟩
    · exact Iff.rfl
    · obtain ⟨n1, n2, n3⟩ := hn t (List.mem_cons_self ..)
      exact flattenAll_matches (hw t (List.mem_cons_self ..)) n1 n2 n3 h1 p

/-- C17 refuted: a term whose source is completely excluded matches nothing; after the shading
check its source list is empty, which means "any", and it matches. -/
theorem C17_refuted : ∃ (t t' : Term) (p : Packet), AddrsWF t ∧ flattenAll t = .ok t' ∧
    ¬ Matches t p ∧ Matches t' p := by
  refine ⟨{ sourceAddress := [ip4 10 0 0 0 8], sourceAddressExclude := [ip4 10 0 0 0 8] },
    { sourceAddress := [], sourceAddressExclude := [ip4 10 0 0 0 8], flattened := true,
      flattenedSaddr := some [] },
    { src := 12 * 2 ^ 24 }, by constructor <;> decide, ?_, by decide, by decide⟩
  have : Nacaddr.addressListExclude [ip4 10 0 0 0 8] [ip4 10 0 0 0 8] false = .ok [] := by decide +kernel
  simp [flattenAll, flattenField, this, bind, Except.bind]

example : AddrsWF exShaded ∧ NotFullyExcluded exShaded.sourceAddress exShaded.sourceAddressExclude ∧
    NotFullyExcluded exShaded.address exShaded.addressExclude ∧
    (detectShading [exShaded, exPrior] matches .ok _) = true := by
  exact ⟨by constructor <;> decide, .inr ⟨.v4, 10 * 2 ^ 24, by decide⟩, .inl rfl, by decide +kernel⟩

/-! ### C18 -/

/-- C18: whenever `AddressCleanup` returns, in every mode, it leaves what the term matches unchanged
(and the six address lists and three port lists each denote the same set). -/
theorem C18_cleanup_preserves (t t' : Term) (o ab : Bool) (w : AddrsWF t) (p1 : PWF t.port)
    (p2 : PWF t.sourcePort) (p3 : PWF t.destinationPort) (h : addressCleanup t o ab = .ok t') :
    (∀ p, Matches t' p ↔ Matches t p) ∧
    SameDen t'.address t.address ∧ SameDen t'.addressExclude t.addressExclude ∧
    SameDen t'.sourceAddress t.sourceAddress ∧ SameDen t'.sourceAddressExclude t.sourceAddressExclude ∧
    SameDen t'.destinationAddress t.destinationAddress ∧
    SameDen t'.destinationAddressExclude t.destinationAddressExclude ∧
    SamePorts t'.port t.port ∧ SamePorts t'.sourcePort t.sourcePort ∧
    SamePorts t'.destinationPort t.destinationPort := by
  refine ⟨addressCleanup_matches w p1 p2 p3 h, ?_⟩
  obtain ⟨a, sa, se, da, de, h1, h2, h3, h4, h5, rfl⟩ := addressCleanup_shape h
  exact ⟨(cleanupField_ok w.address h1).2, .refl _, (cleanupField_ok w.source h2).2,
    (cleanupField_ok w.sourceExclude h3).2, (cleanupField_ok w.destination h4).2,
    (cleanupField_ok w.destinationExclude h5).2, (portField p1).2, (portField p2).2, (portField p3).2⟩

/-- C18: it returns without optimisation, in address-book mode, or when no list mixes families. -/
theorem C18_cleanup_total (t : Term) (o ab : Bool)
    (h : o = false ∨ ab = true ∨
      ((∀ a ∈ t.sourceAddress, ∀ b ∈ t.sourceAddress, a.ver = b.ver) ∧
       (∀ a ∈ t.sourceAddressExclude, ∀ b ∈ t.sourceAddressExclude, a.ver = b.ver) ∧
       (∀ a ∈ t.destinationAddress, ∀ b ∈ t.destinationAddress, a.ver = b.ver) ∧
       (∀ a ∈ t.destinationAddressExclude, ∀ b ∈ t.destinationAddressExclude, a.ver = b.ver))) :
    ∃ t', addressCleanup t o ab = .ok t' :=
  addressCleanup_total t o ab h

/-- C18, the excluded point: mixed families with an exclude at the first IPv6 source address raise
`TypeError`. -/
theorem C18_not_total_mixed : ∃ t : Term, AddrsWF t ∧
    (addressCleanup t true false matches .error .typeError) = true :=
  ⟨{ sourceAddress := [ip4 10 0 0 0 8, ip6 0x20 16], sourceAddressExclude := [ip6 0x20 16] },
    by constructor <;> decide, by decide +kernel⟩

example : AddrsWF exShaded ∧ (addressCleanup exShaded true false matches .ok _) = true := by
  exact ⟨by constructor <;> decide, by decide +kernel⟩

/-! ### C20 -/

/-- What an accepted term looks like (independent of the order of the checks). The tables of ICMP
types and codes are data copied from the code. -/
structure SaneTerm (t : Term) : Prop where
  action : t.verbatim = [] → t.action ≠ [] ∨ t.routingInstance ∨ t.nextIp ∨ t.nextInterface ∨
    t.nextHopGroup ∨ t.encapsulate ∨ t.decapsulate ∨ t.filterTerm ∨ t.portMirror
  filter : t.verbatim = [] → t.filterTerm → t.action = []
  verbatim : t.verbatim ≠ [] → t.action = [] ∧ t.port = [] ∧ t.sourcePort = [] ∧ t.destinationPort = [] ∧
    t.protocol = [] ∧ t.option = []
  ports : t.port ≠ [] ∨ t.sourcePort ≠ [] ∨ t.destinationPort ≠ [] →
    ∀ p ∈ t.protocol, p = "tcp" ∨ p = "udp" ∨ p = "udplite" ∨ p = "sctp"
  icmpCode : t.icmpCode ≠ [] → ∃ ty codes, t.icmpType = [ty] ∧ icmpCodes.lookup ty = some codes ∧
    ∀ c ∈ t.icmpCode, c ∈ codes
  icmpType : ∀ i ∈ t.icmpType, icmpTypes4.lookup i ≠ none ∨ icmpTypes6.lookup i ≠ none
  ttl : ∀ n, t.ttl = some n → n ≤ 255
  trafficClass : ∀ n, t.trafficClass = some n → n ≤ 7
  ether : t.etherType ≠ [] → t.protocol = [] ∧ t.address = [] ∧ t.destinationAddress = [] ∧
    t.destinationAddressExclude = [] ∧ t.destinationPort = [] ∧ t.destinationPrefix = [] ∧
    t.destinationPrefixExcept = [] ∧ t.sourceAddress = [] ∧ t.sourceAddressExclude = [] ∧
    t.sourcePort = [] ∧ t.sourcePrefix = [] ∧ t.sourcePrefixExcept = []

/-- C20 (partial): `SanityCheck` accepts exactly the terms described by `SaneTerm`. Missing: the
ether-type clause does not cover all upper-layer matches and not every rejection is a policy error
(both false, see below). -/
theorem C20_sanity_partial (t : Term) : sanityCheck t = .ok () ↔ SaneTerm t := by
  rw [sanityCheck_ok]
  have e1 : sanityAction t = .ok () ↔
      ((t.verbatim = [] → t.action ≠ [] ∨ t.routingInstance ∨ t.nextIp ∨ t.nextInterface ∨
        t.nextHopGroup ∨ t.encapsulate ∨ t.decapsulate ∨ t.filterTerm ∨ t.portMirror) ∧
       (t.verbatim = [] → t.filterTerm → t.action = []) ∧
       (t.verbatim ≠ [] → t.action = [] ∧ t.port = [] ∧ t.sourcePort = [] ∧ t.destinationPort = [] ∧
        t.protocol = [] ∧ t.option = []) ∧
       (t.port ≠ [] ∨ t.sourcePort ≠ [] ∨ t.destinationPort ≠ [] →
        ∀ p ∈ t.protocol, p = "tcp" ∨ p = "udp" ∨ p = "udplite" ∨ p = "sctp")) := by
    unfold sanityAction
    have hpw : t.protocol.any (fun p => !protosWithPorts.contains p) = true ↔
        ¬ ∀ p ∈ t.protocol, p = "tcp" ∨ p = "udp" ∨ p = "udplite" ∨ p = "sctp" := by
      simp [protosWithPorts]
    rcases Classical.em (t.verbatim = []) with hv | hv
    · simp only [hv, List.isEmpty_nil, Bool.not_true, Bool.false_eq_true, if_false, ne_eq, not_true_eq_false,
        false_implies, true_implies, true_and]
      split
      next h =>
        simp only [Bool.and_eq_true, Bool.not_eq_true', List.isEmpty_iff] at h
        simp [h]
      next h =>
        simp only [Bool.and_eq_true, Bool.not_eq_true', List.isEmpty_iff] at h
        split
        next h2 =>
          simp only [Bool.and_eq_true, Bool.not_eq_true', List.isEmpty_eq_false_iff] at h2
          simp only [reduceCtorEq, false_iff]
          rintro ⟨_, hf, _⟩
          exact h2.2 (hf h2.1)
        next h2 =>
          simp only [Bool.and_eq_true, Bool.not_eq_true', List.isEmpty_eq_false_iff] at h2
          have c1 : t.action ≠ [] ∨ t.routingInstance = true ∨ t.nextIp = true ∨ t.nextInterface = true ∨
              t.nextHopGroup = true ∨ t.encapsulate = true ∨ t.decapsulate = true ∨ t.filterTerm = true ∨
              t.portMirror = true := by grind
          have c2 : t.filterTerm = true → t.action = [] := by grind
          split
          next h3 =>
            rw [Bool.and_eq_true, hpw] at h3
            simp only [Bool.or_eq_true, Bool.not_eq_true', List.isEmpty_eq_false_iff] at h3
            constructor
            · intro h; split at h <;> cases h
            · rintro ⟨_, _, hp⟩
              exact absurd (hp (by grind)) h3.1
          next h3 =>
            rw [Bool.and_eq_true, hpw] at h3
            simp only [Bool.or_eq_true, Bool.not_eq_true', List.isEmpty_eq_false_iff] at h3
            simp only [true_iff]
            exact ⟨c1, c2, by grind⟩
    · have hv' : (!t.verbatim.isEmpty) = true := by simpa using hv
      simp only [hv', if_true, hv, false_implies, true_and, ne_eq, not_false_eq_true, true_implies]
      split
      next h =>
        simp only [Bool.or_eq_true, Bool.not_eq_true', List.isEmpty_eq_false_iff] at h
        simp only [reduceCtorEq, false_iff]
        grind
      next h =>
        simp only [Bool.or_eq_true, Bool.not_eq_true', List.isEmpty_eq_false_iff] at h
        simp only [true_iff]
        grind
  have e2 : sanityEther t = .ok () ↔ (t.etherType ≠ [] → t.protocol = [] ∧ t.address = [] ∧
      t.destinationAddress = [] ∧ t.destinationAddressExclude = [] ∧ t.destinationPort = [] ∧
      t.destinationPrefix = [] ∧ t.destinationPrefixExcept = [] ∧ t.sourceAddress = [] ∧
      t.sourceAddressExclude = [] ∧ t.sourcePort = [] ∧ t.sourcePrefix = [] ∧
      t.sourcePrefixExcept = []) := by
    unfold sanityEther
    split
    next h =>
      simp only [Bool.and_eq_true, Bool.or_eq_true, Bool.not_eq_true', List.isEmpty_eq_false_iff] at h
      simp only [reduceCtorEq, false_iff]
      grind
    next h =>
      simp only [Bool.and_eq_true, Bool.or_eq_true, Bool.not_eq_true', List.isEmpty_eq_false_iff] at h
      simp only [true_iff]
      grind
  have e3 : sanityIcmpCode t = .ok () ↔ (t.icmpCode ≠ [] → ∃ ty codes, t.icmpType = [ty] ∧
      icmpCodes.lookup ty = some codes ∧ ∀ c ∈ t.icmpCode, c ∈ codes) := by
    unfold sanityIcmpCode
    split
    next h => simp only [List.isEmpty_iff] at h; simp [h]
    next h =>
      have h' : t.icmpCode ≠ [] := by simpa using h
      simp only [h', ne_eq, not_false_eq_true, true_implies]
      split
      next ty hty =>
        rw [hty]
        split
        next hl => simp [hl]
        next cs hl =>
          split
          next hc =>
            simp only [reduceCtorEq, false_iff]
            rintro ⟨ty', codes, e, hl', hall⟩
            cases e
            rw [hl] at hl'; cases hl'
            obtain ⟨c, hc1, hc2⟩ := List.any_eq_true.1 hc
            simp at hc2
            exact hc2 (hall c hc1)
          next hc =>
            simp only [true_iff]
            refine ⟨ty, cs, rfl, hl, fun c hc1 => ?_⟩
            refine Classical.byContradiction fun hn => hc ?_
            exact List.any_eq_true.2 ⟨c, hc1, by simpa using hn⟩
      next hty =>
        simp only [reduceCtorEq, false_iff]
        rintro ⟨ty, codes, e, _⟩
        exact hty ty e
  have e4 : sanityRest t = .ok () ↔
      ((∀ i ∈ t.icmpType, icmpTypes4.lookup i ≠ none ∨ icmpTypes6.lookup i ≠ none) ∧
       (∀ n, t.ttl = some n → n ≤ 255) ∧ (∀ n, t.trafficClass = some n → n ≤ 7)) := by
    unfold sanityRest
    split
    next h =>
      obtain ⟨i, hi, hh⟩ := List.any_eq_true.1 h
      simp only [Bool.and_eq_true, Option.isNone_iff_eq_none] at hh
      simp only [reduceCtorEq, false_iff]
      rintro ⟨hall, _⟩
      rcases hall i hi with h1 | h1
      · exact h1 hh.1
      · exact h1 hh.2
    next h =>
      have c1 : ∀ i ∈ t.icmpType, icmpTypes4.lookup i ≠ none ∨ icmpTypes6.lookup i ≠ none := by
        intro i hi
        refine Classical.byContradiction fun hn => h ?_
        refine List.any_eq_true.2 ⟨i, hi, ?_⟩
        simp only [Bool.and_eq_true, Option.isNone_iff_eq_none]
        exact ⟨Classical.byContradiction fun k => hn (.inl k), Classical.byContradiction fun k => hn (.inr k)⟩
      split
      next h2 =>
        simp only [reduceCtorEq, false_iff]
        rintro ⟨_, ht, _⟩
        cases ho : t.ttl with
        | none => rw [ho] at h2; simp at h2
        | some n =>
          rw [ho] at h2; simp at h2
          have := ht n ho; omega
      next h2 =>
        have c2 : ∀ n, t.ttl = some n → n ≤ 255 := by
          intro n hn; rw [hn] at h2; simp at h2; exact h2
        split
        next h3 =>
          simp only [reduceCtorEq, false_iff]
          rintro ⟨_, _, ht⟩
          cases ho : t.trafficClass with
          | none => rw [ho] at h3; simp at h3
          | some n =>
            rw [ho] at h3; simp at h3
            have := ht n ho; omega
        next h3 =>
          simp only [true_iff]
          refine ⟨c1, c2, ?_⟩
          intro n hn; rw [hn] at h3; simp at h3; exact h3
  rw [e1, e2, e3, e4]
  constructor
  · rintro ⟨⟨a1, a2, a3, a4⟩, b, c, d1, d2, d3⟩
    exact ⟨a1, a2, a3, a4, c, d1, d2, d3, b⟩
  · rintro ⟨a1, a2, a3, a4, c, d1, d2, d3, b⟩
    exact ⟨⟨a1, a2, a3, a4⟩, b, c, d1, d2, d3⟩

/-- C20 (partial): a rejection is a policy error unless the term has an ICMP code for a single type
without a code table. -/
theorem C20_policy_error_partial (t : Term) (e : Err) (h : sanityCheck t = .error e)
    (hi : t.icmpCode = [] ∨ ∀ ty, t.icmpType = [ty] → icmpCodes.lookup ty ≠ none) :
    ∃ cls, e = .raised cls := by
  rcases sanityCheck_error h with h | h | h | h
  · unfold sanityAction at h
    dsimp only at h
    repeat' split at h
    all_goals first | (cases h; exact ⟨_, rfl⟩) | cases h
  · unfold sanityEther at h
    split at h
    · cases h; exact ⟨_, rfl⟩
    · cases h
  · unfold sanityIcmpCode at h
    split at h
    · cases h
    next hc =>
      have hi' := hi.resolve_left (by simpa using hc)
      split at h
      next ty hty =>
        split at h
        next hl => exact absurd hl (hi' ty hty)
        · split at h
          · cases h; exact ⟨_, rfl⟩
          · cases h
      · cases h; exact ⟨_, rfl⟩
  · unfold sanityRest at h
    repeat' split at h
    all_goals first | (cases h; exact ⟨_, rfl⟩) | cases h

/-- C20 refuted: an ICMP code for a type without code table raises `KeyError`. -/
theorem C20_refuted_keyError : ∃ t : Term, sanityCheck t = .error .keyError :=
  ⟨{ action := ["accept"], icmpType := ["echo-request"], icmpCode := [0] }, by decide⟩

/-- C20 refuted: ether-type together with an ICMP type or an address exclusion is accepted. -/
theorem C20_refuted_ether : ∃ t : Term, t.etherType ≠ [] ∧ t.icmpType ≠ [] ∧ t.addressExclude ≠ [] ∧
    sanityCheck t = .ok () :=
  ⟨{ action := ["accept"], etherType := ["arp"], icmpType := ["echo-request"],
     addressExclude := [ip4 10 0 0 0 8] }, by decide, by decide, by decide, by decide⟩

example : SaneTerm exShaded := (C20_sanity_partial _).1 (by decide)
example : sanityCheck { exShaded with protocol := ["tcp", "icmp"] } =
    .error (.raised "MixedPortandNonPortProtos") := by decide
example : sanityCheck { action := ["accept"], icmpType := ["unreachable"], icmpCode := [16] } =
    .error (.raised "ICMPCodeError") := by decide

/-! ### C21 -/

/-- C21: the two families partition the list; order is preserved. -/
theorem C21_address_of_version (l : List Net) :
    (∀ n ∈ getAddressOfVersion l (some .v4), n.ver = .v4) ∧
    (∀ n ∈ getAddressOfVersion l (some .v6), n.ver = .v6) ∧
    (getAddressOfVersion l (some .v4)).Sublist l ∧ (getAddressOfVersion l (some .v6)).Sublist l ∧
    (getAddressOfVersion l (some .v4) ++ getAddressOfVersion l (some .v6)).Perm l ∧
    getAddressOfVersion l none = l := by
  refine ⟨?_, ?_, List.filter_sublist, List.filter_sublist, ?_, rfl⟩
  · intro n hn; simpa using (List.mem_filter.1 hn).2
  · intro n hn; simpa using (List.mem_filter.1 hn).2
  · unfold getAddressOfVersion
    have : l.filter (fun x => x.ver == .v6) = l.filter (fun x => !(x.ver == .v4)) := by
      apply List.filter_congr
      intro x _
      cases x.ver <;> rfl
    simp only [this]
    exact List.filter_append_perm ..

example : getAddressOfVersion [ip4 10 0 0 0 8, ip6 0x20 16, ip4 11 0 0 0 8] (some .v4) =
    [ip4 10 0 0 0 8, ip4 11 0 0 0 8] := by decide

end Verif.Props
