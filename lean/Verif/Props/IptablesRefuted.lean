import Verif.Props.IptablesFilter
import Verif.Props.Policy

/-!
Concrete cases for the theorems about capirca/lib/iptables.py, and the terms and policies for which the properties fail.
-/

namespace Verif.Props
open Verif Verif.Spec Verif.Spec.Nf Verif.Iptables Policy Aclgenerator Nacaddr

/-! ### evaluation of rules on concrete packets -/

theorem iana_ex {s : String} {φ : Nat → Prop} : (∃ k, (s, k) ∈ iana ∧ φ k) ↔ ∃ x ∈ iana, x.1 = s ∧ φ x.2 :=
  ⟨fun ⟨_, h, hk⟩ => ⟨_, h, rfl, hk⟩, fun ⟨x, h, e, hk⟩ => ⟨x.2, e ▸ h, hk⟩⟩

instance (s : String) (φ : Nat → Prop) [DecidablePred φ] : Decidable (∃ k, (s, k) ∈ iana ∧ φ k) :=
  decidable_of_iff _ iana_ex.symm

instance (o : Option Nat) (n : Nat) : Decidable (∀ k, o = some k → n = k) :=
  match o with
  | none => isTrue (by simp)
  | some m => decidable_of_iff (n = m) (by simp)

instance (o : Option (List Net)) (v : Ver) (x : Nat) : Decidable (∃ l, o = some l ∧ Den l v x) :=
  match o with
  | none => isFalse (by simp)
  | some l => decidable_of_iff (Den l v x) (by simp)

instance (e : Host) (p : Packet) (m : Match) : Decidable (m.Holds e p) := by
  cases m <;> unfold Match.Holds <;> infer_instance

instance (e : Host) (p : Packet) (ms : List Match) : Decidable (All e p ms) := by unfold All; infer_instance

/-- The traversal, for concrete rules. -/
def runRules (chains : Str → List (List Arg)) (e : Host) (p : Packet) : Nat → List (List Arg) → Option (Option Nf.Verdict)
  | 0, _ => none
  | _ + 1, [] => some none
  | n + 1, r :: rs =>
    match parse r with
    | none => none
    | some (ms, t) =>
      if All e p ms then
        match t with
        | .ret => some none
        | .log => runRules chains e p n rs
        | .jump c =>
          match runRules chains e p n (chains c) with
          | none => none
          | some (some v) => some (some v)
          | some none => runRules chains e p n rs
        | t => t.verdict.map some
      else runRules chains e p n rs

theorem runRules_sound {chains : Str → List (List Arg)} {e : Host} {p : Packet} (n : Nat) : ∀ {rs : List (List Arg)}
    {v : Option Nf.Verdict}, runRules chains e p n rs = some v → Walk chains e p rs v := by
  induction n with
  | zero => intro rs v h; cases h
  | succ n ih =>
    intro rs v h
    cases rs with
    | nil => cases h; exact .done
    | cons r rs =>
      rw [runRules] at h
      split at h
      · cases h
      next ms t hp =>
        split at h
        next ha =>
          cases t with
          | ret => cases h; exact .ret hp ha
          | log => exact .log hp ha (ih h)
          | jump c =>
            dsimp only at h
            split at h
            · cases h
            next w hw => cases h; exact .call hp ha (ih hw)
            next hw => exact .back hp ha (ih hw) (ih h)
          | accept => cases h; exact .hit hp ha rfl
          | drop => cases h; exact .hit hp ha rfl
          | reject => cases h; exact .hit hp ha rfl
        next ha => exact .skip hp ha (ih h)

/-- The outcome for a term in the filter INPUT. -/
def runTerm (c : Cls) (track : Bool) (af : Ver) (r : ITerm) (e : Host) (p : Packet) : Option (Option Nf.Verdict) :=
  match Iptables.renderTerm c "INPUT".toList track af r with
  | .error _ => none
  | .ok q => runRules (rulesOf q.lines) e p 100 (rulesOf q.lines "INPUT".toList)

/-- The host deals with the packet as said after reading the lines of a single term in the filter INPUT. -/
def Yields (c : Cls) (track : Bool) (af : Ver) (r : ITerm) (e : Host) (p : Packet) (v : Option Nf.Verdict) : Prop :=
  ∃ q, Iptables.renderTerm c "INPUT".toList track af r = .ok q ∧ Walk (rulesOf q.lines) e p (rulesOf q.lines "INPUT".toList) v

theorem runTerm_sound {c : Cls} {track : Bool} {af : Ver} {r : ITerm} {e : Host} {p : Packet} {v : Option Nf.Verdict}
    (h : runTerm c track af r e p = some v) : Yields c track af r e p v := by
  unfold runTerm at h
  split at h
  · cases h
  next q hq => exact ⟨q, hq, runRules_sound _ h⟩

/-- The term passes the checks of the tool and is meant for the platform. -/
def IAccepted (c : Cls) (t : Term) : Prop :=
  initCheck (tables c) [([c.platform], [kterm t])] = .ok () ∧ sanityCheck t = .ok () ∧ Active c.platform (kterm t)

instance (c : Cls) (t : Term) : Decidable (IAccepted c t) := inferInstanceAs (Decidable (_ ∧ _ ∧ _))

/-- A packet of a new connection. -/
def nfPacket (v : Ver) (proto : String) : Packet :=
  { ver := v, src := 10 * 2 ^ 24 + 1, dst := 10 * 2 ^ 24 + 2, proto := proto, sport := 2000, dport := 3000,
    hasOption := fun o => o ∈ ["sample", "syn", "initial", "tcp-initial"] }

theorem nfPacket_sound {track : Bool} {v : Ver} {proto : String} (h : proto ∈ iana.map Prod.fst) (h4 : v = .v4 → proto ≠ "icmpv6")
    (h6 : v = .v6 → proto ≠ "icmp") (hu : track = false → proto ≠ "udp") : Sound track { state := "NEW" } (nfPacket v proto) where
  src := by cases v <;> simp [nfPacket, Ver.bits]
  dst := by cases v <;> simp [nfPacket, Ver.bits]
  proto := h
  icmp4 := h4
  icmp6 := h6
  state := by decide
  est := by intro _; simp [nfPacket]
  tcpEst := by intro _ _; simp [nfPacket]
  tcp := by intro _ _ o ho; simp only [List.mem_cons, List.not_mem_nil, or_false] at ho; rcases ho with rfl | rfl <;> simp [nfPacket]
  udp := by intro h1 h2; exact absurd h2 (hu h1)
  initial := by intro o ho _; simp only [List.mem_cons, List.not_mem_nil, or_false] at ho; rcases ho with rfl | rfl <;> simp [nfPacket]
  all := by simp [nfPacket, tcpFlags]
  none := by simp [nfPacket, tcpFlags]
  sample := by simp [nfPacket]

/-! ### C69: terms that are not rendered faithfully -/

/-- C69 (C46) is false if all addresses are excluded: the exclusion is ignored. -/
theorem C69_refuted_exclude : ∃ r p, IAccepted Iptables.iptables r.term ∧ Sound true { state := "NEW" } p ∧ p.ver = .v4 ∧
    Yields Iptables.iptables true .v4 r { state := "NEW" } p (some .accept) ∧ ¬ Matches r.term p := by
  refine ⟨{ term :=
      { name := "t".toList, action := ["accept"], protocol := ["tcp"], sourceAddress := [ip4 10 0 0 0 8],
        sourceAddressExclude := [ip4 10 0 0 0 8] } }, nfPacket .v4 "tcp", by decide +kernel,
    nfPacket_sound (by decide) (by decide) (by decide) (by decide), rfl, runTerm_sound (by decide +kernel), by decide +kernel⟩

/-- C69 is false for the ICMP code 0: it is dropped and every code matches. -/
theorem C69_refuted_code : ∃ r p, IAccepted Iptables.iptables r.term ∧ Sound true { state := "NEW" } p ∧ p.ver = .v4 ∧
    Yields Iptables.iptables true .v4 r { state := "NEW" } p (some .accept) ∧ ¬ Matches r.term p := by
  refine ⟨{ term :=
      { name := "t".toList, action := ["accept"], protocol := ["icmp"], icmpType := ["unreachable"],
        icmpCode := [0] } }, { nfPacket .v4 "icmp" with icmpType := "unreachable", icmpCode := 3 }, by decide +kernel, ?_, rfl,
    runTerm_sound (by decide +kernel), by decide +kernel⟩
  have := nfPacket_sound (track := true) (v := .v4) (proto := "icmp") (by decide) (by decide) (by decide) (by decide)
  exact { this with }

/-- C69 is false for the option `none`: the flags are not tested. -/
theorem C69_refuted_none : ∃ r p, IAccepted Iptables.iptables r.term ∧ Sound true { state := "NEW" } p ∧ p.ver = .v4 ∧
    Yields Iptables.iptables true .v4 r { state := "NEW" } p (some .accept) ∧ ¬ Matches r.term p := by
  refine ⟨{ term := { name := "t".toList, action := ["accept"], protocol := ["tcp"], option := ["none"] } },
    nfPacket .v4 "tcp", by decide +kernel,
    nfPacket_sound (by decide) (by decide) (by decide) (by decide), rfl, runTerm_sound (by decide +kernel), by decide +kernel⟩

/-- C69 is false for `established` with TCP and UDP without connection tracking: new connections are accepted. -/
theorem C69_refuted_established : ∃ r p, IAccepted Iptables.iptables r.term ∧ Sound false { state := "NEW" } p ∧ p.ver = .v4 ∧
    Yields Iptables.iptables false .v4 r { state := "NEW" } p (some .accept) ∧ ¬ Matches r.term p := by
  refine ⟨{ term := { name := "t".toList, action := ["accept"], protocol := ["tcp", "udp"], option := ["established"] } },
    nfPacket .v4 "tcp", by decide +kernel,
    nfPacket_sound (by decide) (by decide) (by decide) (by decide), rfl, runTerm_sound (by decide +kernel), by decide +kernel⟩

/-- C69 is false for `hopopt` together with other protocols in IPv4: the whole term is left out. -/
theorem C69_refuted_hopopt : ∃ r p, IAccepted Iptables.iptables r.term ∧ Sound true { state := "NEW" } p ∧ p.ver = .v4 ∧
    Yields Iptables.iptables true .v4 r { state := "NEW" } p none ∧ Matches r.term p ∧ r.term.action = ["deny"] := by
  refine ⟨{ term := { name := "t".toList, action := ["deny"], protocol := ["tcp", "hopopt"] } },
    nfPacket .v4 "tcp", by decide +kernel,
    nfPacket_sound (by decide) (by decide) (by decide) (by decide), rfl, runTerm_sound (by decide +kernel), by decide +kernel, rfl⟩

/-- C69 is false for `icmp` together with other protocols in IPv6: the whole term is left out. -/
theorem C69_refuted_icmp : ∃ r p, IAccepted Iptables.iptables r.term ∧ Sound true { state := "NEW" } p ∧ p.ver = .v6 ∧
    Yields Iptables.iptables true .v6 r { state := "NEW" } p none ∧ Matches r.term p ∧ r.term.action = ["deny"] := by
  refine ⟨{ term := { name := "t".toList, action := ["deny"], protocol := ["tcp", "icmp"] } },
    nfPacket .v6 "tcp", by decide +kernel,
    nfPacket_sound (by decide) (by decide) (by decide) (by decide), rfl, runTerm_sound (by decide +kernel), by decide +kernel, rfl⟩

/-- C69 is false for fragment offsets in IPv6: the rule reads other fields of the header. -/
theorem C69_refuted_fragment : ∃ r p, IAccepted Iptables.iptables r.term ∧ Sound true { state := "NEW" } p ∧ p.ver = .v6 ∧
    Yields Iptables.iptables true .v6 r { state := "NEW" } p none ∧ Matches r.term p ∧ r.term.action = ["deny"] := by
  refine ⟨{ term := { name := "t".toList, action := ["deny"], fragmentOffset := [1, 7] } },
    { nfPacket .v6 "tcp" with fragmentOffset := 2 }, by decide +kernel, ?_, rfl,
    runTerm_sound (by decide +kernel), by decide +kernel, rfl⟩
  have := nfPacket_sound (track := true) (v := .v6) (proto := "tcp") (by decide) (by decide) (by decide) (by decide)
  exact { this with }

/-- C69 is false for the IPv6 protocol `fragment` together with others and a condition: the test for the fragment header
is left in the rules of the other protocols. -/
theorem C69_refuted_leak : ∃ r p, IAccepted Iptables.iptables r.term ∧ Sound true { state := "NEW" } p ∧ p.ver = .v6 ∧
    Yields Iptables.iptables true .v6 r { state := "NEW" } p none ∧ Matches r.term p ∧ r.term.action = ["deny"] := by
  refine ⟨{ term := { name := "t".toList, action := ["deny"], protocol := ["fragment", "tcp"], packetLength := [64, 1500] } },
    { nfPacket .v6 "tcp" with packetLength := 100 }, by decide +kernel, ?_, rfl,
    runTerm_sound (by decide +kernel), by decide +kernel, rfl⟩
  have := nfPacket_sound (track := true) (v := .v6) (proto := "tcp") (by decide) (by decide) (by decide) (by decide)
  exact { this with }

/-- C69 is false for terms restricted to the other family: the restriction is ignored. -/
theorem C69_refuted_family : ∃ r p, IAccepted Iptables.iptables r.term ∧ Sound true { state := "NEW" } p ∧ p.ver = .v4 ∧
    Yields Iptables.iptables true .v4 r { state := "NEW" } p (some .accept) ∧ ¬ Matches r.term p := by
  refine ⟨{ term := { name := "t".toList, action := ["accept"], protocol := ["tcp"], restrictAddressFamily := some "inet6" } },
    nfPacket .v4 "tcp", by decide +kernel,
    nfPacket_sound (by decide) (by decide) (by decide) (by decide), rfl, runTerm_sound (by decide +kernel), by decide +kernel⟩

/-- C69 is false for terms with prefix lists that accept: they are left out. -/
theorem C69_refuted_prefix : ∃ r p, IAccepted Iptables.iptables r.term ∧ Sound true { state := "NEW" } p ∧ p.ver = .v4 ∧
    Yields Iptables.iptables true .v4 r { state := "NEW" } p none ∧ Matches r.term p ∧ r.term.action = ["accept"] := by
  refine ⟨{ term := { name := "t".toList, action := ["accept"], protocol := ["tcp"], sourcePrefix := ["trusted"] } },
    { nfPacket .v4 "tcp" with inSrcPrefix := fun _ => true }, by decide +kernel, ?_, rfl,
    runTerm_sound (by decide +kernel), by decide +kernel, rfl⟩
  have := nfPacket_sound (track := true) (v := .v4) (proto := "tcp") (by decide) (by decide) (by decide) (by decide)
  exact { this with }

/-- C69 is false for tags: a term with a source tag matches packets without it. -/
theorem C69_refuted_tag : ∃ r p, IAccepted Iptables.iptables r.term ∧ Sound true { state := "NEW" } p ∧ p.ver = .v4 ∧
    Yields Iptables.iptables true .v4 r { state := "NEW" } p (some .accept) ∧ ¬ Matches r.term p := by
  refine ⟨{ term := { name := "t".toList, action := ["accept"], protocol := ["tcp"], sourceTag := ["db"] } },
    nfPacket .v4 "tcp", by decide +kernel,
    nfPacket_sound (by decide) (by decide) (by decide) (by decide), rfl, runTerm_sound (by decide +kernel), by decide +kernel⟩

/-- C69 is false for `log_limit`: the rule for the log is not one the host can read. -/
theorem C69_refuted_limit : ∃ r q d args, IAccepted Iptables.iptables r.term ∧
    Iptables.renderTerm Iptables.iptables "INPUT".toList true .v4 r = .ok q ∧ .rule d args ∈ q.lines ∧ parse args = none := by
  refine ⟨ITerm.mk { name := "t".toList, action := ["accept"], protocol := ["tcp"], logging := ["true"] } false
      (some ("10", "minute")), _, "I_t".toList,
    [.w "-p", .w "tcp", .w "-m", .w "state", .w "--state", .list ["NEW", "ESTABLISHED", "RELATED"], .w "-m", .w "--limit",
      .w "10/minute", .w "-j", .w "LOG", .w "--log-prefix", .name "t".toList], by decide +kernel, rfl, by decide +kernel,
    by decide +kernel⟩

/-! ### concrete cases of the theorems -/

/-- Replies from a network without a part of it. -/
def nfTerm : Term :=
  { name := "web".toList, action := ["accept"], protocol := ["tcp", "udp"], sourceAddress := [ip4 10 0 0 0 8],
    sourceAddressExclude := [ip4 10 1 0 0 16], destinationPort := [(80, 81), (3000, 3000)], option := ["established"] }

theorem nfTerm_fits {c : Cls} (hc : c ∈ nfClasses) : IFits c true .v4 { term := nfTerm } "accept" where
  keywords := by revert c; decide +kernel
  sane := by decide +kernel
  active := by revert c; decide
  verbatim := rfl
  action := rfl
  srcTag := rfl
  dstTag := rfl
  ttl := by decide
  trafficClass := by decide
  family := .inl rfl
  srcPrefix := rfl
  dstPrefix := rfl
  limit := rfl
  src := by decide
  dst := by decide
  srcLeft := by
    intro _ _
    exact ⟨.v4, 10 * 2 ^ 24, .inr (by decide), by decide⟩
  dstLeft := by intro _ h; exact absurd rfl h
  names := by decide
  icmp4 := by decide
  icmp6 := by decide
  exts4 := by decide
  ports := by decide
  code := by decide
  noFlags := by decide
  flags := by decide
  est := by intro h; cases h
  frag6 := by intro h; cases h
  leak := by decide

/-- Everything else. -/
def nfRest : Term := { name := "rest".toList, action := ["deny"] }

theorem nfRest_fits {c : Cls} (hc : c ∈ nfClasses) {track : Bool} : IFits c track .v4 { term := nfRest } "deny" where
  keywords := by revert c; decide +kernel
  sane := by decide +kernel
  active := by revert c; decide
  verbatim := rfl
  action := rfl
  srcTag := rfl
  dstTag := rfl
  ttl := by decide
  trafficClass := by decide
  family := .inl rfl
  srcPrefix := rfl
  dstPrefix := rfl
  limit := rfl
  src := by decide
  dst := by decide
  srcLeft := by intro _ h; exact absurd rfl h
  dstLeft := by intro _ h; exact absurd rfl h
  names := by decide
  icmp4 := by decide
  icmp6 := by decide
  exts4 := by decide
  ports := by decide
  code := by decide
  noFlags := by decide
  flags := by decide
  est := by intro _ h; revert h; decide
  frag6 := by intro h; cases h
  leak := by decide

/-- A filter with both. -/
def nfFilter : Filter := ⟨"INPUT".toList, ["DROP"], [{ term := nfTerm }, { term := nfRest }]⟩

/-- A reply the first term asks for. -/
def nfReply : Packet :=
  { ver := .v4, src := 10 * 2 ^ 24 + 1, dst := 5, proto := "tcp", sport := 443, dport := 3000,
    hasOption := fun o => o ∈ ["sample", "ack", "established", "tcp-established"] }

theorem nfReply_sound : Sound true { state := "ESTABLISHED" } nfReply := by
  constructor <;> decide

/-- C69 on a concrete term and packet: it is accepted. -/
example : ∃ q, Iptables.renderTerm Iptables.iptables "INPUT".toList true .v4 { term := nfTerm } = .ok q ∧
    ∃ v, Walk (fun _ => []) { state := "ESTABLISHED" } nfReply (rulesOf q.lines "I_web".toList) v ∧
      ((Matches nfTerm nfReply ∧ Nf.Asks "accept" v) ∨ (¬ Matches nfTerm nfReply ∧ v = none)) := by
  have h : ∃ q, Iptables.renderTerm Iptables.iptables "INPUT".toList true .v4 { term := nfTerm } = .ok q := by
    cases hr : Iptables.renderTerm Iptables.iptables "INPUT".toList true .v4 { term := nfTerm } with
    | ok q => exact ⟨q, rfl⟩
    | error e =>
      have : (match Iptables.renderTerm Iptables.iptables "INPUT".toList true .v4 { term := nfTerm } with
        | .ok _ => true
        | .error _ => false) = true := by decide +kernel
      rw [hr] at this
      cases this
  obtain ⟨q, hq⟩ := h
  obtain ⟨v, h1, h2, _⟩ := C69_term_partial (.inl rfl) (nfTerm_fits (by decide)) (filter := "INPUT".toList) (by decide) hq nfReply_sound
    rfl (fun _ => [])
  exact ⟨q, hq, v, h1, h2⟩

/-- The whole filter for `iptables`, `speedway` and `ipset` on the reply. -/
example : ∀ c ∈ nfClasses, ∃ ls sets, Iptables.render c [nfFilter] = .ok (ls, sets) ∧ (c ≠ Iptables.ipset → (created ls).Nodup) ∧
    (∀ r ∈ nfFilter.terms, Nf.Live c.platform r → (∃ a, a ≠ "next" ∧ IFits c true .v4 r a) ∧ PWF r.term.destinationPort) := by
  intro c hc
  have h : ∀ c ∈ nfClasses, (match Iptables.render c [nfFilter] with
    | .ok _ => true
    | .error _ => false) = true := by decide +kernel
  have h := h c hc
  split at h
  next x hr =>
    obtain ⟨ls, sets⟩ := x
    refine ⟨ls, sets, hr, fun hne => ?_, ?_⟩
    · have hc' : c = Iptables.iptables ∨ c = Iptables.speedway := by
        simp only [nfClasses, List.mem_cons, List.not_mem_nil, or_false] at hc
        rcases hc with h | h | h
        · exact .inl h
        · exact .inr h
        · exact absurd h hne
      exact C70_chains hc' hr (by intro x h; simp [nfFilter] at h)
    · intro r hr _
      simp only [nfFilter, List.mem_cons, List.not_mem_nil, or_false] at hr
      rcases hr with rfl | rfl
      · exact ⟨⟨"accept", by decide, nfTerm_fits hc⟩, by decide⟩
      · exact ⟨⟨"deny", by decide, nfRest_fits hc⟩, by decide⟩
  · cases h

/-! ### C70: filters that do not decide like the policy -/

/-- The outcome for a packet that enters a chain. -/
def runChain (c : Cls) (fs : List Filter) (sets : Str → Option (List Net)) (state : String) (p : Packet) (chain : Str) :
    Option (Option Nf.Verdict) :=
  match Iptables.render c fs with
  | .error _ => none
  | .ok x => runRules (rulesOf x.1) { state := state, sets := sets } p 100 (rulesOf x.1 chain)

theorem runChain_sound {c : Cls} {fs : List Filter} {sets : Str → Option (List Net)} {state : String} {p : Packet} {chain : Str}
    {v : Option Nf.Verdict} (h : runChain c fs sets state p chain = some v) :
    ∃ ls ss, Iptables.render c fs = .ok (ls, ss) ∧
      Walk (rulesOf ls) { state := state, sets := sets } p (rulesOf ls chain) v := by
  unfold runChain at h
  split at h
  · cases h
  next x hx => exact ⟨x.1, x.2, hx, runRules_sound _ h⟩

/-- C70 is false for filters with the same first letter and terms of the same name: they share a chain, and the packets of
one filter get the verdict of a term of the other. -/
theorem C70_refuted_collision : ∃ (f g : Filter) (p : Packet) (ls : List Iptables.Line) (ss : List IpSet),
    f.name ≠ g.name ∧ (∀ r ∈ f.terms ++ g.terms, IAccepted Iptables.iptables r.term) ∧
    Iptables.render Iptables.iptables [f, g] = .ok (ls, ss) ∧ Sound true { state := "NEW" } p ∧ p.ver = .v4 ∧
    Walk (rulesOf ls) { state := "NEW" } p (rulesOf ls g.name) (some .accept) ∧
    ∀ r ∈ g.terms, Matches r.term p → r.term.action = ["deny"] := by
  have := runChain_sound (c := Iptables.iptables)
    (fs := [⟨"INPUT".toList, [], [{ term := { name := "t".toList, action := ["accept"], protocol := ["tcp"] } }]⟩,
      ⟨"INGRESS".toList, [], [{ term := { name := "t".toList, action := ["deny"], protocol := ["tcp"] } }]⟩])
    (sets := fun _ => none) (state := "NEW") (p := nfPacket .v4 "tcp") (chain := "INGRESS".toList) (v := some .accept)
    (by decide +kernel)
  obtain ⟨ls, ss, h1, h2⟩ := this
  exact ⟨_, _, _, ls, ss, by decide, by decide +kernel, h1,
    nfPacket_sound (by decide) (by decide) (by decide) (by decide), rfl, h2, by decide +kernel⟩

/-- C70 is false for a filter whose name looks like the chain of a term: its rules follow those of the term. -/
theorem C70_refuted_name : ∃ (f g : Filter) (p : Packet) (ls : List Iptables.Line) (ss : List IpSet),
    f.name ≠ g.name ∧ (∀ r ∈ f.terms ++ g.terms, IAccepted Iptables.iptables r.term) ∧
    Iptables.render Iptables.iptables [f, g] = .ok (ls, ss) ∧ Sound true { state := "NEW" } p ∧ p.ver = .v4 ∧
    Walk (rulesOf ls) { state := "NEW" } p (rulesOf ls f.name) (some .accept) ∧
    ∀ r ∈ f.terms, ¬ Matches r.term p := by
  have := runChain_sound (c := Iptables.iptables)
    (fs := [⟨"INPUT".toList, [], [{ term := { name := "t".toList, action := ["accept"], protocol := ["udp"] } }]⟩,
      ⟨"I_t".toList, [], [{ term := { name := "u".toList, action := ["accept"], protocol := ["tcp"] } }]⟩])
    (sets := fun _ => none) (state := "NEW") (p := nfPacket .v4 "tcp") (chain := "INPUT".toList) (v := some .accept)
    (by decide +kernel)
  obtain ⟨ls, ss, h1, h2⟩ := this
  exact ⟨_, _, _, ls, ss, by decide, by decide +kernel, h1,
    nfPacket_sound (by decide) (by decide) (by decide) (by decide), rfl, h2, by decide +kernel⟩

/-! ### C71: options of a filter -/

/-- C71 is false for `nostate`: a filter after one with `nostate` accepts new connections for a term that asks for
established ones, although its own options ask for connection tracking. -/
theorem C71_refuted_nostate : ∃ (f g : Filter) (p : Packet) (ls : List Iptables.Line) (ss : List IpSet),
    f.name ≠ g.name ∧ "nostate" ∉ g.options ∧ (∀ r ∈ f.terms ++ g.terms, IAccepted Iptables.iptables r.term) ∧
    Iptables.render Iptables.iptables [f, g] = .ok (ls, ss) ∧ Sound true { state := "NEW" } p ∧ p.ver = .v4 ∧
    Walk (rulesOf ls) { state := "NEW" } p (rulesOf ls g.name) (some .accept) ∧
    ∀ r ∈ g.terms, ¬ Matches r.term p := by
  have := runChain_sound (c := Iptables.iptables)
    (fs := [⟨"OUTPUT".toList, ["nostate"], [{ term := { name := "t".toList, action := ["accept"], protocol := ["tcp"] } }]⟩,
      ⟨"INPUT".toList, [], [{ term := { name := "u".toList, action := ["accept"], protocol := ["udp"], option := ["established"] } }]⟩])
    (sets := fun _ => none) (state := "NEW") (p := nfPacket .v4 "udp") (chain := "INPUT".toList) (v := some .accept)
    (by decide +kernel)
  obtain ⟨ls, ss, h1, h2⟩ := this
  exact ⟨_, _, _, ls, ss, by decide, by decide, by decide +kernel, h1,
    nfPacket_sound (by decide) (by decide) (by decide) (by decide), rfl, h2, by decide +kernel⟩

/-- C71 is false for default actions: the action of one filter becomes the policy of the chains after it. -/
theorem C71_refuted_default : ∃ (f g : Filter) (ls : List Iptables.Line) (ss : List IpSet),
    f.name ≠ g.name ∧ g.options = [] ∧ Iptables.render Iptables.iptables [f, g] = .ok (ls, ss) ∧
    .policy g.name "ACCEPT" ∈ ls := by
  refine ⟨⟨"OUTPUT".toList, ["ACCEPT"], []⟩, ⟨"INPUT".toList, [], []⟩, _, _, by decide, rfl, rfl, by decide +kernel⟩

/-! ### C48: sets that are not what the terms ask for -/

/-- C48 is false across filters: terms of the same name share the name of a set. -/
theorem C48_refuted_names : ∃ (f g : Filter) (ls : List Iptables.Line) (ss : List IpSet) (s t : IpSet), f.name ≠ g.name ∧
    (∀ r ∈ f.terms ++ g.terms, IAccepted Iptables.ipset r.term) ∧
    Iptables.render Iptables.ipset [f, g] = .ok (ls, ss) ∧ s ∈ ss ∧ t ∈ ss ∧ s.1 = t.1 ∧
    Den s.2 .v4 (10 * 2 ^ 24) ∧ ¬ Den t.2 .v4 (10 * 2 ^ 24) := by
  refine ⟨⟨"INPUT".toList, [],
      [{ term := { name := "t".toList, action := ["accept"], sourceAddress := [ip4 10 0 0 0 8, ip4 192 168 0 0 16] } }]⟩,
    ⟨"FORWARD".toList, [],
      [{ term := { name := "t".toList, action := ["deny"], sourceAddress := [ip4 11 0 0 0 8, ip4 192 168 0 0 16] } }]⟩,
    _, _, ("t-src".toList, [ip4 10 0 0 0 8, ip4 192 168 0 0 16]), ("t-src".toList, [ip4 11 0 0 0 8, ip4 192 168 0 0 16]),
    by decide, by decide +kernel, rfl, by decide +kernel, by decide +kernel, rfl, by decide +kernel, by decide +kernel⟩

/-- C48 is false for `next`: the rest of the filter is skipped. -/
theorem C48_refuted_next : ∃ (f : Filter) (p : Packet) (ls : List Iptables.Line) (ss : List IpSet),
    (∀ r ∈ f.terms, IAccepted Iptables.ipset r.term) ∧
    Iptables.render Iptables.ipset [f] = .ok (ls, ss) ∧ Sound true { state := "NEW" } p ∧ p.ver = .v4 ∧
    Walk (rulesOf ls) { state := "NEW" } p (rulesOf ls f.name) none ∧
    Decides "ipset" true f.terms p (some .drop) := by
  have := runChain_sound (c := Iptables.ipset)
    (fs := [⟨"INPUT".toList, [], [{ term := { name := "t".toList, action := ["next"], protocol := ["tcp"] } },
      { term := { name := "u".toList, action := ["deny"] } }]⟩])
    (sets := fun _ => none) (state := "NEW") (p := nfPacket .v4 "tcp") (chain := "INPUT".toList) (v := none)
    (by decide +kernel)
  obtain ⟨ls, ss, h1, h2⟩ := this
  refine ⟨_, _, ls, ss, by decide +kernel, h1,
    nfPacket_sound (by decide) (by decide) (by decide) (by decide), rfl, h2, .inl ⟨[_], _, [], "deny", rfl, ⟨⟨rfl, by decide⟩,
      .inl ⟨rfl, by decide +kernel⟩, by decide⟩, rfl, rfl, ?_⟩⟩
  intro s hs
  rw [List.mem_singleton.1 hs]
  rintro ⟨_, _, h⟩
  exact h rfl

/-- C71 on two filters. -/
example : ∃ ls ss, Iptables.render Iptables.iptables [⟨"INPUT".toList, ["inet6"], []⟩, ⟨"OUTPUT".toList, ["ACCEPT", "DROP"], []⟩] = .ok (ls, ss) ∧
    .policy "OUTPUT".toList "DROP" ∈ ls ∧ .policy "OUTPUT".toList "ACCEPT" ∉ ls ∧ .policy "INPUT".toList "DROP" ∉ ls := by
  refine ⟨_, _, rfl, ?_, ?_, ?_⟩
  · exact (C71_partial (c := Iptables.iptables) (pre := [⟨"INPUT".toList, ["inet6"], []⟩]) (f := ⟨"OUTPUT".toList, ["ACCEPT", "DROP"], []⟩)
      (post := []) rfl (by decide) (by decide) (by decide) "DROP").2 (.inl ⟨["ACCEPT"], [], rfl, by decide, by decide, by decide⟩)
  · decide +kernel
  · decide +kernel

/-- Two networks of which a part is excluded. -/
def nfSets : Filter :=
  ⟨"INPUT".toList, [], [{ term := { name := "t".toList, action := ["accept"],
                                    sourceAddress := [ip4 10 0 0 0 8, ip4 11 0 0 0 8],
                                    sourceAddressExclude := [ip4 10 0 0 0 9] } }]⟩

/-- The sets of a filter of `ipset`. -/
example : ∃ ls ss, Iptables.render Iptables.ipset [nfSets] = .ok (ls, ss) ∧
    ss = [("t-src".toList, [ip4 10 128 0 0 9, ip4 11 0 0 0 8])] ∧ (ss.map Prod.fst).Nodup := by
  have h : Iptables.render Iptables.ipset [nfSets] = .ok ([.rule "INPUT".toList
      [.w "-p", .w "all", .w "-m", .w "set", .w "--match-set", .name "t-src".toList, .w "src", .w "-m", .w "state", .w "--state",
       .list ["NEW", "ESTABLISHED", "RELATED"], .w "-j", .w "ACCEPT"]],
      [("t-src".toList, [ip4 10 128 0 0 9, ip4 11 0 0 0 8])]) := by decide +kernel
  exact ⟨_, _, h, rfl, (C48_names h).2⟩

end Verif.Props
