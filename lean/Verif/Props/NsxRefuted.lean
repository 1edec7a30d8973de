import Verif.Props.NsxOut
import Verif.Props.AristaTpRefuted
import Verif.Props.WindowsRefuted
import Verif.Props.GcpHfRefuted

/-!
Concrete cases for the theorems about capirca/lib/nsxv.py and capirca/lib/nsxt.py, and the policies for which C127 to C130 fail.
-/

namespace Verif.Props
open Verif Verif.Spec Verif.Nsx Policy Aclgenerator Nacaddr

/-! ### evaluation on concrete packets -/

instance nsxProtoDec (p : Packet) : (k : Proto) → Decidable (Spec.Nsx.ProtoIs p k)
  | .num n => inferInstanceAs (Decidable (Flat.NumberIs p n))
  | .str _ => .isFalse id

instance nsxPortDec (p : Packet) (x : Nat) (r : PortRange) : Decidable (Flat.PortIn p x r) := by
  unfold Flat.PortIn
  infer_instance

instance nsxServiceDec (s : Service) (p : Packet) : Decidable (Spec.Nsx.ServiceHits s p) :=
  decidable_of_iff (Spec.Nsx.ProtoIs p s.proto ∧ (s.sport = [] ∨ ∃ r ∈ s.sport, Flat.PortIn p p.sport r) ∧
      (s.dport = [] ∨ ∃ r ∈ s.dport, Flat.PortIn p p.dport r) ∧ (Flat.IfSet s.icmp fun k => (p.icmpType, k) ∈ Spec.icmpNumbers p.ver))
    ⟨fun ⟨a, b, c, d⟩ => ⟨a, b, c, d⟩, fun ⟨a, b, c, d⟩ => ⟨a, b, c, d⟩⟩

instance nsxHitsDec (r : Rule) (p : Packet) : Decidable (Spec.Nsx.Hits r p) :=
  decidable_of_iff ((r.src = [] ∨ ∃ n ∈ r.src, Flat.Covers n p.ver p.src) ∧ (r.dst = [] ∨ ∃ n ∈ r.dst, Flat.Covers n p.ver p.dst) ∧
      (r.services = [] ∨ ∃ s ∈ r.services, Spec.Nsx.ServiceHits s p) ∧ (Flat.IfSet r.families fun l => p.ver ∈ l))
    ⟨fun ⟨a, b, c, d⟩ => ⟨a, b, c, d⟩, fun ⟨a, b, c, d⟩ => ⟨a, b, c, d⟩⟩

/-- What a rule decides; for concrete cases. -/
def nsxDoes (p : Packet) (r : Rule) : Option String := if Spec.Nsx.Hits r p then some r.action else none

/-- What a term wants; for concrete cases. -/
def nsxWant (platform : String) (names : List (String × String)) (p : Packet) (n : NTerm) : Option String :=
  if (n.expired = false ∧ (n.term.platform = [] ∨ platform ∈ n.term.platform) ∧ platform ∉ n.term.platformExclude) ∧
      Matches n.term p then
    match n.term.action with
    | [w] => names.lookup w
    | _ => none
  else none

theorem nsxWant_iff {platform : String} {names : List (String × String)} (hn : ∀ e ∈ names, names.lookup e.1 = some e.2) {p : Packet}
    {n : NTerm} {a : String} : Flat.Wants platform names n.expired n.term p a ↔ nsxWant platform names p n = some a := by
  unfold nsxWant Flat.Wants
  constructor
  · rintro ⟨h1, h2, w, hw, h⟩
    rw [if_pos ⟨h1, h2⟩, hw]
    exact hn _ h
  · intro h
    split at h
    next h1 =>
      split at h
      next w hw => exact ⟨h1.1, h1.2, w, hw, Cisco.mem_of_lookup' h⟩
      · cases h
    · cases h

instance aboutDec (opts : List String) (v : Ver) : Decidable (Spec.Nsx.About opts v) := inferInstanceAs (Decidable (_ ∨ _))

/-- The tool takes the terms. About some packet the filter is meant for, neither from nor to the address 0, the terms decide `want`, and
the rules decide `got`. -/
def NsxSays (tables : Tables) (names : List (String × String)) (translate : List Nsx.Filter → Except Err Nsx.Section)
    (opts : List String) (ts : List NTerm) (want got : Option String) : Prop :=
  ∃ p sec, (∀ n ∈ ts, initCheck tables [([tables.platform], [kterm n.term])] = .ok () ∧ sanityCheck n.term = .ok ()) ∧
    Coherent p ∧ Spec.Nsx.About opts p.ver ∧ p.src ≠ 0 ∧ p.dst ≠ 0 ∧ translate [⟨true, opts, ts⟩] = .ok sec ∧
    (∀ a, Spec.Nsx.PolicyDecides tables.platform names ts p a ↔ want = some a) ∧ ∀ a, Spec.Nsx.Decides sec.rules p a ↔ got = some a

/-- The decidable part. -/
def nsxCheck (tables : Tables) (names : List (String × String)) (translate : List Nsx.Filter → Except Err Nsx.Section)
    (opts : List String) (ts : List NTerm) (p : Packet) (want got : Option String) : Bool :=
  decide (∀ n ∈ ts, initCheck tables [([tables.platform], [kterm n.term])] = .ok () ∧ sanityCheck n.term = .ok ()) &&
  decide (Coherent p ∧ Spec.Nsx.About opts p.ver ∧ p.src ≠ 0 ∧ p.dst ≠ 0) && decide (∀ e ∈ names, names.lookup e.1 = some e.2) &&
  ts.findSome? (nsxWant tables.platform names p) == want &&
  match translate [⟨true, opts, ts⟩] with
  | .ok sec => sec.rules.findSome? (nsxDoes p) == got
  | .error _ => false

theorem nsx_says {tables : Tables} {names : List (String × String)} {translate : List Nsx.Filter → Except Err Nsx.Section}
    {opts : List String} {ts : List NTerm} {want got : Option String} (p : Packet)
    (h : nsxCheck tables names translate opts ts p want got = true) : NsxSays tables names translate opts ts want got := by
  unfold nsxCheck at h
  split at h
  next sec hsec =>
    simp only [Bool.and_eq_true, decide_eq_true_eq, beq_iff_eq] at h
    obtain ⟨⟨⟨⟨a1, a2, a3, a4, a5⟩, a6⟩, a7⟩, a8⟩ := h
    refine ⟨p, sec, a1, a2, a3, a4, a5, hsec, fun a => ?_, fun a => ?_⟩
    · unfold Spec.Nsx.PolicyDecides
      rw [hf_findSome (w := nsxWant tables.platform names p) (fun x a => nsxWant_iff a6), a7]
    · unfold Spec.Nsx.Decides
      rw [hf_findSome (hit := fun r a => Spec.Nsx.Hits r p ∧ r.action = a) (w := nsxDoes p) (fun x a => by
        unfold nsxDoes
        constructor
        · rintro ⟨h1, h2⟩
          rw [if_pos h1, h2]
        · intro h
          split at h
          next h1 => exact ⟨h1, by simpa using h⟩
          · cases h), a8]
  · simp at h

/-- The terms of a filter for NSX-V decide one thing, its rules another. -/
def VSays := NsxSays tablesV Spec.Nsx.namesV translateV

/-- The terms of a filter for NSX-T decide one thing, its rules another. -/
def TSays := NsxSays tablesT Spec.Nsx.namesT translateT

/-! ### a case -/

/-- Terms with addresses of both versions, exclusions, ports, types of icmp and icmpv6, and expired ones. -/
def nsxTerms : List NTerm :=
  [{ term := { name := "gone".toList, action := ["accept"] }, expired := true },
   { term := { name := "web".toList, action := ["accept"], protocol := ["tcp", "udp"], sourceAddress := [ip4 10 0 0 0 8, ip6 32 16],
               sourceAddressExclude := [ip4 10 1 0 0 16], destinationPort := [(80, 80), (8000, 8100)] },
     comment := ["for all".toList] },
   { term := { name := "ping".toList, action := ["accept"], protocol := ["icmp"], icmpType := ["echo-request"],
               destinationAddress := [ip4 10 0 0 0 8] } },
   { term := { name := "ping6".toList, action := ["reject"], protocol := ["icmpv6"], icmpType := ["echo-request"] } },
   { term := { name := "cisco".toList, action := ["accept"], platform := ["cisco"] } },
   { term := { name := "last".toList, action := ["deny"] } }]

/-- The header they are under. -/
def nsxOpts : List String := ["in", "mixed", "7", "securitygroup", "web"]

theorem nsxTerms_fit (tables : Tables) (ht : tables = tablesV ∨ tables = tablesT) (p : Packet) :
    ∀ n ∈ nsxTerms, NsxFits tables nsxOpts p n.term := by
  intro n hn
  have key : initCheck tables [([tables.platform], [kterm n.term])] = .ok () := by
    have : ∀ n ∈ nsxTerms, initCheck tablesV [([tablesV.platform], [kterm n.term])] = .ok () ∧
        initCheck tablesT [([tablesT.platform], [kterm n.term])] = .ok () := by decide +kernel
    rcases ht with rfl | rfl
    · exact (this n hn).1
    · exact (this n hn).2
  simp only [nsxTerms, List.mem_cons, List.not_mem_nil, or_false] at hn
  rcases hn with rfl | rfl | rfl | rfl | rfl | rfl
  all_goals
    exact ⟨key, by decide +kernel, ⟨rfl, rfl, by decide, by decide⟩, .inl rfl, ⟨_, rfl⟩, by decide +kernel, by decide +kernel,
      by simp, by simp, by simp, by simp, by simp [nsxOpts, Spec.Nsx.typeOf], by simp, by simp, by simp⟩

theorem nsx_witness4 {inc exc : List Net} (x : Nat) (h : AddrMatch inc exc .v4 x) :
    ∃ v x, Spec.Nsx.About nsxOpts v ∧ AddrMatch inc exc v x := ⟨.v4, x, .inl rfl, h⟩

theorem nsx_witness {inc exc : List Net} (x : Nat) (hx : x ≠ 0) (h : AddrMatch inc exc .v4 x) :
    ∃ v x, Spec.Nsx.About nsxOpts v ∧ AddrMatch inc exc v x ∧ (v = .v4 → x ≠ 0) := ⟨.v4, x, .inl rfl, h, fun _ => hx⟩

theorem nsxTerms_vfit : ∀ n ∈ nsxTerms, VFits nsxOpts n.term := by
  intro n hn
  have zero : ∀ n ∈ nsxTerms, ∀ s ∈ n.term.icmpType, (s, 0) ∉ Spec.icmpNumbers .v4 ∧ (s, 0) ∉ Spec.icmpNumbers .v6 := by decide
  have zero := zero n hn
  simp only [nsxTerms, List.mem_cons, List.not_mem_nil, or_false] at hn
  rcases hn with rfl | rfl | rfl | rfl | rfl | rfl
  all_goals
    refine ⟨by simp [iana], fun s hs v => by cases v; exact (zero s hs).1; exact (zero s hs).2,
      fun h => ?_, fun h => ?_⟩
    all_goals first
      | exact absurd rfl h
      | exact nsx_witness4 (10 * 2 ^ 24) (by decide +kernel)

theorem nsxTerms_tfit : ∀ n ∈ nsxTerms, TFits nsxOpts n.term := by
  intro n hn
  simp only [nsxTerms, List.mem_cons, List.not_mem_nil, or_false] at hn
  rcases hn with rfl | rfl | rfl | rfl | rfl | rfl
  all_goals
    refine ⟨by simp, fun h => ?_, fun h => ?_, fun _ => ?_, fun _ => ?_⟩
    all_goals first
      | exact absurd rfl h
      | exact nsx_witness (10 * 2 ^ 24) (by decide) (by decide +kernel)
      | simp [ip4, ip6]

/-- The hypotheses of C127_partial hold for these terms, next to a filter for another platform. -/
example (p : Packet) (hc : Coherent p) (sec : Nsx.Section) (h : translateV [⟨false, [], []⟩, ⟨true, nsxOpts, nsxTerms⟩] = .ok sec)
    (a : String) : Spec.Nsx.Decides sec.rules p a ↔ Spec.Nsx.PolicyDecides "nsxv" Spec.Nsx.namesV nsxTerms p a :=
  C127_partial (f := ⟨true, nsxOpts, nsxTerms⟩) h (by simp) rfl hc (.inl rfl)
    (fun n hn _ => ⟨nsxTerms_fit _ (.inl rfl) p n hn, nsxTerms_vfit n hn⟩) a

/-- The hypotheses of C128_partial hold for these terms. -/
example (p : Packet) (hc : Coherent p) (h0 : p.src ≠ 0 ∧ p.dst ≠ 0) (sec : Nsx.Section)
    (h : translateT [⟨false, [], []⟩, ⟨true, nsxOpts, nsxTerms⟩] = .ok sec)
    (a : String) : Spec.Nsx.Decides sec.rules p a ↔ Spec.Nsx.PolicyDecides "nsxt" Spec.Nsx.namesT nsxTerms p a :=
  C128_partial (f := ⟨true, nsxOpts, nsxTerms⟩) h (by simp) rfl hc (.inl rfl) (fun _ => h0)
    (fun n hn _ => ⟨nsxTerms_fit _ (.inr rfl) p n hn, nsxTerms_tfit n hn⟩) a

theorem nsxTerms_render : ∀ n ∈ nsxTerms, NsxRenders nsxOpts n.term := by
  intro n hn
  simp only [nsxTerms, List.mem_cons, List.not_mem_nil, or_false] at hn
  rcases hn with rfl | rfl | rfl | rfl | rfl | rfl
  all_goals
    refine ⟨by decide, by simp, rfl, rfl, by decide +kernel, by decide +kernel, fun h _ => ?_⟩
    all_goals first
      | exact absurd rfl h
      | exact ⟨.v4, .inl rfl, rfl, fun s hs => ⟨8, by revert s; decide⟩⟩
      | exact ⟨.v6, .inl rfl, rfl, fun s hs => ⟨128, by revert s; decide⟩⟩

/-- The hypotheses of C130_nsxv_partial and C130_nsxt_partial hold for these terms: they are rendered. -/
example : (∃ sec, translateV [⟨false, [], []⟩, ⟨true, nsxOpts, nsxTerms⟩] = .ok sec) ∧
    ∃ sec, translateT [⟨false, [], []⟩, ⟨true, nsxOpts, nsxTerms⟩] = .ok sec :=
  ⟨C130_nsxv_partial (f := ⟨true, nsxOpts, nsxTerms⟩) rfl ⟨by decide, .inr (.inr rfl), by decide⟩ (by decide)
      (fun n hn _ => nsxTerms_render n hn) (by decide),
    C130_nsxt_partial (f := ⟨true, nsxOpts, nsxTerms⟩) rfl ⟨by decide, .inr (.inr rfl), by decide⟩ (by decide)
      (fun n hn _ => nsxTerms_render n hn)⟩

example : VSays nsxOpts nsxTerms (some "allow") (some "allow") :=
  nsx_says { proto := "tcp", src := 10 * 2 ^ 24 + 5, dst := 7, dport := 8050, sport := 1024 } (by decide +kernel)

example : VSays nsxOpts nsxTerms (some "deny") (some "deny") :=
  nsx_says { proto := "tcp", src := 10 * 2 ^ 24 + 2 ^ 16 + 5, dst := 7, dport := 8050, sport := 1024 } (by decide +kernel)

example : TSays nsxOpts nsxTerms (some "ALLOW") (some "ALLOW") :=
  nsx_says { proto := "tcp", src := 10 * 2 ^ 24 + 5, dst := 7, dport := 8050, sport := 1024 } (by decide +kernel)

example : TSays nsxOpts nsxTerms (some "REJECT") (some "REJECT") :=
  nsx_says { ver := .v6, proto := "icmpv6", src := 5, dst := 7, icmpType := "echo-request" } (by decide +kernel)

/-- What C131 says about them. -/
example (sec : Nsx.Section) (h : translateV [⟨true, nsxOpts, nsxTerms⟩] = .ok sec) :
    sec.name = "in" ∧ sec.id = some "7" ∧ sec.scope = some "web" := by
  obtain ⟨h1, h2, h3⟩ := C131_section h List.mem_cons_self rfl
  exact ⟨(Option.some.inj h1).symm, (h2 "7").2 ⟨rfl, by decide⟩, (h3 "web").2 ⟨"in", "mixed", ["7"], [], rfl, by decide⟩⟩

example (sec : Nsx.Section) (h : translateT [⟨true, ["in", "inet", "securitygroup", "web"], nsxTerms⟩] = .ok sec) :
    sec.name = "in" ∧ sec.id = some "in" ∧ sec.scope = some "/infra/domains/default/groups/web" := by
  obtain ⟨h1, _, h3, h4⟩ := C131_policy h List.mem_cons_self rfl
  have e : "in" = sec.name := Option.some.inj h1
  refine ⟨e.symm, ?_, (h4 _).2 ⟨"web", ⟨"in", "inet", [], [], rfl, by decide⟩, .inr ⟨by decide, by decide⟩⟩⟩
  rw [e]
  exact h3 fun i hi => by cases hi; rfl

/-- Terms whose destinations are cleared of 0.0.0.0 for each of the reasons. -/
def nsxZero : List NTerm :=
  [{ term := { name := "a".toList, action := ["accept"], destinationAddress := [ip4 0 0 0 0 8],
               destinationAddressExclude := [ip4 0 1 0 0 16] } },
   { term := { name := "b".toList, action := ["accept"], destinationAddress := [ip4 0 0 0 0 0] } },
   { term := { name := "c".toList, action := ["accept"], sourceAddress := [ip4 0 0 0 0 8], destinationAddress := [ip4 0 0 0 0 8] } }]

example (sec : Nsx.Section) (h : translateT [⟨true, ["in", "inet"], nsxZero⟩] = .ok sec) :
    ∀ r ∈ sec.rules, (∀ n ∈ r.src, ¬ (n.1 = .v4 ∧ n.2.1 = 0)) ∧ ∀ n ∈ r.dst, ¬ (n.1 = .v4 ∧ n.2.1 = 0) := by
  have wf : ∀ f ∈ [(⟨true, ["in", "inet"], nsxZero⟩ : Nsx.Filter)], ∀ n ∈ f.terms,
      (∀ x ∈ n.term.sourceAddress ++ n.term.sourceAddressExclude, WF x) ∧
      ∀ x ∈ n.term.destinationAddress ++ n.term.destinationAddressExclude, WF x := by decide +kernel
  intro r hr
  refine ⟨C129_sources h (fun f hf n hn => (wf f hf n hn).1) r hr, C129_destinations_partial h wf ?_ r hr⟩
  intro f hf n hn _
  rw [List.mem_singleton] at hf
  subst hf
  simp only [nsxZero, List.mem_cons, List.not_mem_nil, or_false] at hn
  rcases hn with rfl | rfl | rfl
  · exact .inl (by decide +kernel)
  · exact .inr (.inl (.inl (by decide +kernel)))
  · exact .inr (.inr ⟨by simp, ⟨1, by decide, by decide +kernel⟩, .inr (by decide +kernel)⟩)

example : (match translateT [⟨true, ["in", "inet"], nsxZero⟩] with
    | .ok sec => decide (sec.rules.length = 3)
    | .error _ => false) = true := by decide +kernel

/-! ### C127 fails -/

/-- C127 is false for terms whose sources are all of the other version: the rule is for any source. -/
theorem C127_refuted_version : VSays ["in", "inet"]
    [{ term := { name := "t".toList, action := ["accept"], sourceAddress := [ip6 32 16] } }]
    none (some "allow") := nsx_says tcpPacket (by decide +kernel)

/-- C127 is false for terms all of whose sources are excluded: the rule is for any source. -/
theorem C127_refuted_excluded : VSays ["in", "inet"]
    [{ term := { name := "t".toList, action := ["accept"], sourceAddress := [ip4 10 0 0 0 8], sourceAddressExclude := [ip4 10 0 0 0 8] } }]
    none (some "allow") := nsx_says tcpPacket (by decide +kernel)

/-- C127 is false for exclusions without addresses: they have no effect. -/
theorem C127_refuted_exclude : VSays ["in", "inet"]
    [{ term := { name := "t".toList, action := ["accept"], sourceAddressExclude := [ip4 192 0 0 0 8] } }]
    none (some "allow") := nsx_says tcpPacket (by decide +kernel)

/-- C127 is false for the type 0 of icmp, echo-reply: the rule is for all types. -/
theorem C127_refuted_zero : VSays ["in", "inet"]
    [{ term := { name := "t".toList, action := ["accept"], protocol := ["icmp"], icmpType := ["echo-reply"] } }]
    none (some "allow") := nsx_says { proto := "icmp", icmpType := "echo-request", src := 1, dst := 1 } (by decide +kernel)

/-- C127 is false for icmp next to icmpv6 in mixed filters: the term is left out. -/
theorem C127_refuted_icmp : VSays ["in", "mixed"]
    [{ term := { name := "t".toList, action := ["deny"], protocol := ["icmp", "icmpv6"] } },
     { term := { name := "u".toList, action := ["accept"] } }]
    (some "deny") (some "allow") := nsx_says { proto := "icmp", icmpType := "echo-request", src := 1, dst := 1 } (by decide +kernel)

/-- C127 is false for icmpv6 next to other protocols in filters for IPv4: the term is left out. -/
theorem C127_refuted_icmpv6 : VSays ["in", "inet"]
    [{ term := { name := "t".toList, action := ["deny"], protocol := ["tcp", "icmpv6"] } },
     { term := { name := "u".toList, action := ["accept"] } }]
    (some "deny") (some "allow") := nsx_says tcpPacket (by decide +kernel)

/-- C127 is false for ports without a protocol: the rule is for all services. -/
theorem C127_refuted_ports : VSays ["in", "inet"]
    [{ term := { name := "t".toList, action := ["accept"], destinationPort := [(22, 22)] } }]
    none (some "allow") := nsx_says tcpPacket (by decide +kernel)

/-- C127 is false for established, which leaves terms out: here one that denies UDP. -/
theorem C127_refuted_established : VSays ["in", "inet"]
    [{ term := { name := "t".toList, action := ["deny"], protocol := ["udp"], option := ["established"] } },
     { term := { name := "u".toList, action := ["accept"] } }]
    (some "deny") (some "allow") := nsx_says { proto := "udp", src := 1, dst := 1, hasOption := fun _ => true } (by decide +kernel)

/-- C127 is false for `restrict_address_family`, which has no effect. -/
theorem C127_refuted_family : VSays ["in", "mixed"]
    [{ term := { name := "t".toList, action := ["accept"], restrictAddressFamily := some "inet6" } }]
    none (some "allow") := nsx_says tcpPacket (by decide +kernel)

/-! ### C128 fails -/

/-- C128 is false for protocols other than tcp, udp, icmp and icmpv6: the rule is for all services. -/
theorem C128_refuted_protocol : TSays ["in", "inet"]
    [{ term := { name := "t".toList, action := ["accept"], protocol := ["gre"] } }]
    none (some "ALLOW") := nsx_says tcpPacket (by decide +kernel)

/-- C128 is false for the source 0.0.0.0: the rule is for any source. -/
theorem C128_refuted_zero : TSays ["in", "inet"]
    [{ term := { name := "t".toList, action := ["accept"], sourceAddress := [ip4 0 0 0 0 32] } }]
    none (some "ALLOW") := nsx_says tcpPacket (by decide +kernel)

/-- C128 is false for all of IPv4 next to IPv6 addresses in mixed filters: the rule is for the IPv6 addresses only. -/
theorem C128_refuted_mixed : TSays ["in", "mixed"]
    [{ term := { name := "t".toList, action := ["deny"], sourceAddress := [ip4 0 0 0 0 0, ip6 0 0] } },
     { term := { name := "u".toList, action := ["accept"] } }]
    (some "DROP") (some "ALLOW") := nsx_says tcpPacket (by decide +kernel)

/-- C128 is false for all of IPv4 in mixed filters: the rule is for IPv6, too. -/
theorem C128_refuted_any : TSays ["in", "mixed"]
    [{ term := { name := "t".toList, action := ["accept"], sourceAddress := [ip4 0 0 0 0 0] } }]
    none (some "ALLOW") := nsx_says { ver := .v6, proto := "tcp", src := 1, dst := 1 } (by decide +kernel)

/-- C128 is false for terms all of whose sources are excluded: the rule is for any source. -/
theorem C128_refuted_excluded : TSays ["in", "inet"]
    [{ term := { name := "t".toList, action := ["accept"], sourceAddress := [ip4 10 0 0 0 8], sourceAddressExclude := [ip4 10 0 0 0 8] } }]
    none (some "ALLOW") := nsx_says tcpPacket (by decide +kernel)

/-- C128 is false for ports without a protocol: the rule is for all services. -/
theorem C128_refuted_ports : TSays ["in", "inet"]
    [{ term := { name := "t".toList, action := ["accept"], destinationPort := [(22, 22)] } }]
    none (some "ALLOW") := nsx_says tcpPacket (by decide +kernel)

/-! ### C129 and C130 fail -/

/-- C129 is false for destinations of terms without sources. -/
theorem C129_refuted : ∃ ts sec r n, translateT [⟨true, ["in", "inet"], ts⟩] = .ok sec ∧ r ∈ sec.rules ∧ n ∈ r.dst ∧
    n.1 = .v4 ∧ n.2.1 = 0 := by
  refine ⟨[{ term := { name := "t".toList, action := ["accept"], destinationAddress := [ip4 0 0 0 0 8] } }], _, _, (.v4, 0, 8), rfl,
    List.mem_singleton.2 rfl, ?_, rfl, rfl⟩
  decide +kernel

/-- C130 is false: two filters that are rendered each alone are not rendered together. -/
theorem C130_refuted_together : ∃ f g : Nsx.Filter, (∃ sec, translateV [f] = .ok sec) ∧ (∃ sec, translateV [g] = .ok sec) ∧
    (∃ sec, translateT [f] = .ok sec) ∧ (∃ sec, translateT [g] = .ok sec) ∧
    translateV [f, g] = .error (.raised "ExpatError") ∧ translateT [f, g] = .error (.raised "NsxtUnsupportedManyPoliciesError") :=
  ⟨⟨true, ["in", "inet"], [{ term := { name := "t".toList, action := ["accept"] } }]⟩,
    ⟨true, ["in6", "inet6"], [{ term := { name := "t".toList, action := ["accept"] } }]⟩,
    ⟨_, rfl⟩, ⟨_, rfl⟩, ⟨_, rfl⟩, ⟨_, rfl⟩, by decide +kernel, by decide +kernel⟩

/-- C130 is false for comments with an ampersand. -/
theorem C130_refuted_comment : ∃ n : NTerm, n.comment = ["R&D".toList] ∧ NsxRenders ["in", "inet"] n.term ∧
    translateV [⟨true, ["in", "inet"], [n]⟩] = .error (.raised "ExpatError") :=
  ⟨{ term := { name := "t".toList, action := ["accept"] }, comment := ["R&D".toList] }, rfl,
    ⟨by decide, by simp, rfl, rfl, by simp, by simp, by simp⟩, by decide +kernel⟩

end Verif.Props
