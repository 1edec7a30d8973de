import Verif.Props.WindowsIpsec
import Verif.Props.OpenConfigRefuted

/-!
Concrete cases for the theorems about capirca/lib/windows.py and the generators built on it, and the policies for which C118 to
C120 fail.
-/

namespace Verif.Props
open Verif Verif.Spec Verif.Windows Policy Aclgenerator Nacaddr
open Verif.Cisco (RTerm)

/-! ### evaluation on concrete packets -/

instance winIfSetDec {α : Type} (P : α → Prop) [DecidablePred P] : (o : Option α) → Decidable (Flat.IfSet o P)
  | none => .isTrue Flat.ifSet_none
  | some a => if h : P a then .isTrue (Flat.ifSet_some.2 h) else .isFalse fun g => h (Flat.ifSet_some.1 g)

instance winNumberDec (p : Packet) (n : Int) : Decidable (Flat.NumberIs p n) :=
  decidable_of_iff (∃ e ∈ iana, p.proto = e.1 ∧ n = (e.2 : Int))
    ⟨fun ⟨e, h, h1, h2⟩ => ⟨e.2, by rw [h1]; exact h, h2⟩, fun ⟨k, h, h2⟩ => ⟨_, h, rfl, h2⟩⟩

instance winNamedDec (p : Packet) (names : List (String × Nat)) (s : String) :
    Decidable (∃ n, (s, n) ∈ names ∧ (p.proto, n) ∈ iana) :=
  decidable_of_iff (∃ e ∈ names, s = e.1 ∧ (p.proto, e.2) ∈ iana)
    ⟨fun ⟨e, h, h1, h2⟩ => ⟨e.2, by rw [h1]; exact h, h2⟩, fun ⟨n, h, h2⟩ => ⟨_, h, rfl, h2⟩⟩

instance winProtoDec (p : Packet) : (k : ProtoTok) → Decidable (Spec.Windows.ProtoHits p k)
  | .word s => inferInstanceAs (Decidable (s = "any" ∨ _))
  | .num n => inferInstanceAs (Decidable (Flat.NumberIs p n))
  | .typed _ _ => inferInstanceAs (Decidable ((_ ∧ _ ∧ _) ∨ (_ ∧ _ ∧ _)))

instance winCoversDec (n : Ver × Nat × Nat) (v : Ver) (x : Nat) : Decidable (Flat.Covers n v x) :=
  inferInstanceAs (Decidable (_ ∧ _))

instance winHitsDec (r : Rule) (dir : String) (p : Packet) : Decidable (Spec.Windows.Hits r dir p) :=
  decidable_of_iff (r.dir = dir ∧ (Flat.IfSet r.localIp fun n => Flat.Covers n p.ver (Spec.Windows.here dir p).1) ∧
      (Flat.IfSet r.remoteIp fun n => Flat.Covers n p.ver (Spec.Windows.there dir p).1) ∧
      (r.localPorts ≠ [] → ∃ q ∈ r.localPorts, q.1 ≤ (Spec.Windows.here dir p).2 ∧ (Spec.Windows.here dir p).2 ≤ q.2) ∧
      (r.remotePorts ≠ [] → ∃ q ∈ r.remotePorts, q.1 ≤ (Spec.Windows.there dir p).2 ∧ (Spec.Windows.there dir p).2 ≤ q.2) ∧
      (r.localPorts ++ r.remotePorts ≠ [] → r.proto = .word "tcp" ∨ r.proto = .word "udp") ∧ Spec.Windows.ProtoHits p r.proto)
    ⟨fun ⟨a, b, c, d, e, f, g⟩ => ⟨a, b, c, d, e, f, g⟩, fun ⟨a, b, c, d, e, f, g⟩ => ⟨a, b, c, d, e, f, g⟩⟩

instance winBlocksDec (rs : List Rule) (dir : String) (p : Packet) : Decidable (Spec.Windows.Blocks rs dir p) :=
  inferInstanceAs (Decidable (∃ r ∈ rs, _ ∧ _))

instance winAllowsDec (rs : List Rule) (dir : String) (p : Packet) : Decidable (Spec.Windows.Allows rs dir p) :=
  inferInstanceAs (Decidable ((∃ r ∈ rs, _ ∧ _) ∧ ¬ _))

instance winWantsDec (r : RTerm) (p : Packet) (a : String) : Decidable (Spec.Windows.Wants r p a) :=
  decidable_of_iff ((r.expired = false ∧ (r.term.platform = [] ∨ "windows_advfirewall" ∈ r.term.platform) ∧
      "windows_advfirewall" ∉ r.term.platformExclude) ∧ Matches r.term p ∧
      ∃ e ∈ Spec.Windows.actionNames, r.term.action = [e.1] ∧ e.2 = a)
    ⟨fun ⟨h1, h2, e, h3, h4, h5⟩ => ⟨h1, h2, e.1, h4, by rw [← h5]; exact h3⟩, fun ⟨h1, h2, w, h3, h4⟩ => ⟨h1, h2, _, h4, h3, rfl⟩⟩

/-- The term passes the checks of the tool. -/
def AdvAccepted (t : Term) : Prop := initCheck advTables [(["windows_advfirewall"], [kterm t])] = .ok () ∧ sanityCheck t = .ok ()

instance advAcceptedDec (t : Term) : Decidable (AdvAccepted t) := inferInstanceAs (Decidable (_ ∧ _))

/-- What the terms ask for a packet if those that deny win. -/
def termsSay (ts : List RTerm) (p : Packet) : Option String :=
  if ∃ r ∈ ts, Spec.Windows.Wants r p "block" then some "block"
  else if ∃ r ∈ ts, Spec.Windows.Wants r p "allow" then some "allow" else none

/-- What the firewall does with a packet it has a rule for. -/
def firewallSays (rs : List Rule) (dir : String) (p : Packet) : Option String :=
  if Spec.Windows.Blocks rs dir p then some "block" else if Spec.Windows.Allows rs dir p then some "allow" else none

/-- The tool takes the terms as a filter for packets that come in, with the options, and for some packet of the version the
terms ask for `want`, and the firewall does `got`. -/
def AdvSays (opts : List String) (ts : List RTerm) (v : Ver) (want got : Option String) : Prop :=
  ∃ p out, (∀ r ∈ ts, AdvAccepted r.term) ∧ Coherent p ∧ p.ver = v ∧ advTranslate [⟨true, "in" :: opts, ts⟩] = .ok out ∧
    termsSay (Spec.Windows.termsOf "in" v [⟨true, "in" :: opts, ts⟩]) p = want ∧ firewallSays out "in" p = got

/-- The decidable part. -/
def advCheck (opts : List String) (ts : List RTerm) (p : Packet) (want got : Option String) : Bool :=
  decide (∀ r ∈ ts, AdvAccepted r.term) && decide (Coherent p) &&
  decide (termsSay (Spec.Windows.termsOf "in" p.ver [⟨true, "in" :: opts, ts⟩]) p = want) &&
  match advTranslate [⟨true, "in" :: opts, ts⟩] with
  | .ok out => decide (firewallSays out "in" p = got)
  | .error _ => false

theorem adv_says {opts : List String} {ts : List RTerm} {v : Ver} {want got : Option String} (p : Packet) (hv : p.ver = v)
    (h : advCheck opts ts p want got = true) : AdvSays opts ts v want got := by
  subst hv
  unfold advCheck at h
  split at h
  next out ho =>
    simp only [Bool.and_eq_true, decide_eq_true_eq] at h
    obtain ⟨⟨⟨h1, h2⟩, h3⟩, h4⟩ := h
    exact ⟨p, out, h1, h2, rfl, ho, h3, h4⟩
  · simp at h

/-! ### cases -/

/-- Terms with addresses, ports, icmp types, protocols without names, and one for replies. -/
def advTerms : List RTerm :=
  [{ term := { name := "old".toList, action := ["deny"] }, expired := true },
   { term := { name := "bad".toList, action := ["deny"], sourceAddress := [ip4 10 9 0 0 16] } },
   { term := { name := "web".toList, action := ["accept"], protocol := ["tcp", "udp"], sourceAddress := [ip4 10 0 0 0 8, ip6 32 16],
               destinationPort := [(80, 80), (8000, 8100)] } },
   { term := { name := "ping".toList, action := ["accept"], protocol := ["icmp"], icmpType := ["echo-request"] } },
   { term := { name := "replies".toList, action := ["accept"], protocol := ["tcp"], option := ["tcp-established"] } },
   { term := { name := "vrrp".toList, action := ["accept"], protocol := ["vrrp", "ipip"], destinationAddress := [ip4 0 0 0 0 0] } }]

/-- The policy: these terms for packets that come in, other terms for packets that go out, and a filter for another platform. -/
def advDemo : List Windows.Filter :=
  [⟨true, ["in"], advTerms⟩, ⟨false, [], [{ term := { name := "t".toList, action := ["deny"] } }]⟩,
   ⟨true, ["out", "inet6"], [{ term := { name := "t".toList, action := ["deny"] } }]⟩]

theorem advTerms_fit : ∀ r ∈ advTerms, AdvFits .v4 r.term ∨ forReplies r.term := by
  intro r hr
  simp only [advTerms, List.mem_cons, List.not_mem_nil, or_false] at hr
  rcases hr with rfl | rfl | rfl | rfl | rfl | rfl
  case inr.inr.inr.inr.inl => exact .inr (.inr (by decide))
  all_goals
    exact .inl ⟨by decide +kernel, by decide +kernel, rfl, ⟨rfl, rfl, by decide, by decide⟩, .inl rfl,
      by simp [ip4, ip6]; try first | decide +kernel | exact ⟨by decide +kernel, by decide +kernel⟩,
      by simp [ip4]; try decide +kernel,
      by simp, by simp, by simp, by simp, by simp [ip4, ip6]⟩

/-- The hypotheses of C118_partial hold for them. -/
example (p : Packet) (hc : Coherent p) (hv : p.ver = .v4) (he : p.hasOption "tcp-established" = false) (out : List Rule)
    (h : advTranslate advDemo = .ok out) :
    Spec.Windows.Blocks out "in" p ↔ ∃ r ∈ Spec.Windows.termsOf "in" p.ver advDemo, Spec.Windows.Wants r p "block" := by
  refine (C118_partial h (.inl rfl) hc ?_ ?_).1
  · intro f hf _ h2
    rw [hv]
    simp only [advDemo, List.mem_cons, List.not_mem_nil, or_false] at hf
    rcases hf with rfl | rfl | rfl
    · rfl
    · cases h2
    · exact absurd h2 (by decide)
  · intro r hr _ _
    rw [hv] at hr
    have : Spec.Windows.termsOf "in" .v4 advDemo = advTerms := rfl
    rw [this] at hr
    rw [hv]
    exact (advTerms_fit r hr).imp id fun g => ⟨g, he⟩

/-- The rules exist, and the firewall allows what a term accepts and blocks what a term denies. -/
example : AdvSays [] advTerms .v4 (some "allow") (some "allow") :=
  adv_says { proto := "tcp", src := 10 * 2 ^ 24 + 5, dst := 7, dport := 8050, sport := 1024 } rfl (by decide +kernel)

example : AdvSays [] advTerms .v4 (some "block") (some "block") :=
  adv_says { proto := "tcp", src := 10 * 2 ^ 24 + 9 * 2 ^ 16, dst := 7, dport := 8050, sport := 1024 } rfl (by decide +kernel)

example : AdvSays [] advTerms .v4 (some "allow") (some "allow") :=
  adv_says { proto := "icmp", icmpType := "echo-request" } rfl (by decide +kernel)

example : AdvSays [] advTerms .v4 none none :=
  adv_says { proto := "icmp", icmpType := "echo-reply" } rfl (by decide +kernel)

/-- A term for IPv6. -/
def advTerm6 : Term :=
  { name := "t".toList, action := ["accept"], protocol := ["icmpv6"], icmpType := ["echo-request"], sourceAddress := [ip6 32 16] }

example : AdvSays ["inet6"] [{ term := advTerm6 }] .v6 (some "allow") (some "allow") :=
  adv_says { ver := .v6, proto := "icmpv6", icmpType := "echo-request", src := 32 * 2 ^ 120, dst := 1 } rfl (by decide +kernel)

/-- The hypotheses of C119_partial hold for a term that denies before one that accepts. -/
example (p : Packet) (hc : Coherent p) (hv : p.ver = .v4) (he : p.hasOption "tcp-established" = false) (out : List Rule)
    (h : advTranslate advDemo = .ok out) :
    Spec.Windows.Allows out "in" p ↔ Spec.Windows.PolicyDecides advTerms p "allow" := by
  have hts : Spec.Windows.termsOf "in" p.ver advDemo = advTerms := by rw [hv]; rfl
  have := (C119_partial (p := p) h (.inl rfl) hc ?_ ?_ ?_).2
  · rw [hts] at this
    exact this
  · intro f hf _ h2
    rw [hv]
    simp only [advDemo, List.mem_cons, List.not_mem_nil, or_false] at hf
    rcases hf with rfl | rfl | rfl
    · rfl
    · cases h2
    · exact absurd h2 (by decide)
  · intro r hr _ _
    rw [hts] at hr
    rw [hv]
    exact (advTerms_fit r hr).imp id fun g => ⟨g, he⟩
  · rw [hts]
    have nb : ∀ r ∈ advTerms.drop 2, ¬ Spec.Windows.Wants r p "block" := by
      have key : ∀ r ∈ advTerms.drop 2, r.term.action = ["accept"] := by decide
      rintro r hr ⟨_, _, w, hw, hn⟩
      have e := key r hr
      rw [e] at hw
      cases hw
      exact absurd hn (by decide)
    have na : ∀ r ∈ advTerms.take 2, ¬ Spec.Windows.Wants r p "allow" := by
      have key : ∀ r ∈ advTerms.take 2, r.term.action = ["deny"] := by decide
      rintro r hr ⟨_, _, w, hw, hn⟩
      have e := key r hr
      rw [e] at hw
      cases hw
      exact absurd hn (by decide)
    rw [← List.take_append_drop 2 advTerms]
    refine List.pairwise_append.2 ⟨?_, ?_, ?_⟩
    · exact List.Pairwise.imp_of_mem (fun h _ _ g => na _ h g.1) (List.pairwise_of_forall (R := fun _ _ => True) fun _ _ => trivial)
    · exact List.Pairwise.imp_of_mem (fun _ h _ g => nb _ h g.2) (List.pairwise_of_forall (R := fun _ _ => True) fun _ _ => trivial)
    · intro r hr s hs g
      exact na r hr g.1

/-! ### C118 fails -/

/-- C118 is false for the other version: the rules of a filter for IPv4 without addresses apply to IPv6. -/
theorem C118_refuted_version : AdvSays [] [{ term := { name := "t".toList, action := ["accept"], protocol := ["tcp"] } }] .v6
    none (some "allow") := adv_says { tcpPacket with ver := .v6 } rfl (by decide +kernel)

/-- C118 is false for options other than those for replies: they have no effect. -/
theorem C118_refuted_option : AdvSays []
    [{ term := { name := "t".toList, action := ["accept"], protocol := ["tcp"], option := ["rst"] } }] .v4
    none (some "allow") := adv_says tcpPacket rfl (by decide +kernel)

/-- C118 is false for terms for replies: nothing is rendered. -/
theorem C118_refuted_replies : AdvSays []
    [{ term := { name := "t".toList, action := ["deny"], protocol := ["tcp"], option := ["tcp-established"] } },
     { term := { name := "u".toList, action := ["accept"], protocol := ["tcp"] } }] .v4
    (some "block") (some "allow") :=
  adv_says { tcpPacket with hasOption := fun s => s == "established" || s == "tcp-established" } rfl (by decide +kernel)

/-- C118 is false for protocols the firewall does not know by the name. -/
theorem C118_refuted_protocol : AdvSays []
    [{ term := { name := "t".toList, action := ["deny"], protocol := ["esp"] } },
     { term := { name := "u".toList, action := ["accept"] } }] .v4
    (some "block") (some "allow") := adv_says { proto := "esp" } rfl (by decide +kernel)

/-- C118 is false for ports without protocols: the firewall takes no ports with `any`. -/
theorem C118_refuted_ports : AdvSays []
    [{ term := { name := "t".toList, action := ["deny"], destinationPort := [(80, 80)] } },
     { term := { name := "u".toList, action := ["accept"] } }] .v4
    (some "block") (some "allow") := adv_says tcpPacket rfl (by decide +kernel)

/-- C118 is false for terms with the icmp of the other version next to other protocols: the whole term is left out. -/
theorem C118_refuted_icmp : AdvSays []
    [{ term := { name := "t".toList, action := ["deny"], protocol := ["tcp", "icmpv6"] } },
     { term := { name := "u".toList, action := ["accept"] } }] .v4
    (some "block") (some "allow") := adv_says tcpPacket rfl (by decide +kernel)

/-- C118 is false for `::/0` in a filter for IPv4: it becomes `any`. -/
theorem C118_refuted_any : AdvSays []
    [{ term := { name := "t".toList, action := ["accept"], sourceAddress := [ip6 0 0] } }] .v4
    none (some "allow") := adv_says tcpPacket rfl (by decide +kernel)

/-- C118 is false for terms restricted to IPv6: they apply to IPv4. -/
theorem C118_refuted_family : AdvSays []
    [{ term := { name := "t".toList, action := ["accept"], restrictAddressFamily := some "inet6" } }] .v4
    none (some "allow") := adv_says tcpPacket rfl (by decide +kernel)

/-! ### C119 fails -/

/-- C119 is false for a policy that accepts some packets and denies the rest: the firewall blocks them all. -/
theorem C119_refuted : ∃ (ts : List RTerm) (p : Packet) (out : List Rule), (∀ r ∈ ts, AdvFits .v4 r.term) ∧ Coherent p ∧ p.ver = .v4 ∧
    advTranslate [⟨true, ["in"], ts⟩] = .ok out ∧ Spec.Windows.PolicyDecides ts p "allow" ∧ Spec.Windows.Blocks out "in" p := by
  refine ⟨[{ term := { name := "web".toList, action := ["accept"], protocol := ["tcp"], destinationPort := [(80, 80)] } },
    { term := { name := "rest".toList, action := ["deny"] } }], tcpPacket, _, ?_, by decide +kernel, rfl, rfl, ?_, by decide +kernel⟩
  · intro r hr
    simp only [List.mem_cons, List.not_mem_nil, or_false] at hr
    rcases hr with rfl | rfl
    all_goals
      exact ⟨by decide +kernel, by decide +kernel, rfl, ⟨rfl, rfl, by decide, by decide⟩, .inl rfl, by simp, by simp, by simp,
        by simp, by simp, by simp, by simp⟩
  · exact ⟨[], _, _, rfl, by decide +kernel, by simp⟩

/-! ### IPsec -/

instance secProtoDec (p : Packet) : (k : ProtoTok) → Decidable (Spec.Windows.SecProto p k)
  | .word s => inferInstanceAs (Decidable (s = "any" ∨ _))
  | .num n => inferInstanceAs (Decidable (Flat.NumberIs p n))
  | .typed _ _ => .isFalse id

instance secCondDec (c : Cond) (p : Packet) : Decidable (Spec.Windows.CondHits c p) :=
  decidable_of_iff (p.ver = .v4 ∧ (Flat.IfSet c.src fun n => Flat.Covers (.v4, n.1, n.2) p.ver p.src) ∧
      (Flat.IfSet c.dst fun n => Flat.Covers (.v4, n.1, n.2) p.ver p.dst) ∧ (Flat.IfSet c.sport fun x => p.sport = x) ∧
      (Flat.IfSet c.dport fun x => p.dport = x) ∧
      (c.sport ≠ none ∨ c.dport ≠ none → c.proto = .word "tcp" ∨ c.proto = .word "udp") ∧ Spec.Windows.SecProto p c.proto)
    ⟨fun ⟨a, b, c, d, e, f, g⟩ => ⟨a, b, c, d, e, f, g⟩, fun ⟨a, b, c, d, e, f, g⟩ => ⟨a, b, c, d, e, f, g⟩⟩

/-- A command is a filter of the list that matches; for concrete cases. -/
def secHit (list : Str) (p : Packet) : Cmd → Bool
  | .filter l c => decide (l = list ∧ (Spec.Windows.CondHits c p ∨ Spec.Windows.CondHits c (Spec.Windows.mirror p)))
  | _ => false

instance secListDec (cs : List Cmd) (list : Str) (p : Packet) : Decidable (Spec.Windows.ListHits cs list p) :=
  decidable_of_iff (∃ x ∈ cs, secHit list p x = true) (by
    constructor
    · rintro ⟨x, hx, h⟩
      cases x with
      | filter l c =>
        have h := of_decide_eq_true h
        exact ⟨c, h.1 ▸ hx, h.2⟩
      | _ => cases h
    · rintro ⟨c, hx, h⟩
      exact ⟨_, hx, decide_eq_true ⟨rfl, h⟩⟩)

instance secLiveDec (r : RTerm) : Decidable (Spec.Windows.Live r) := inferInstanceAs (Decidable ((_ ∧ (_ ∨ _) ∧ _) ∧ _ ∧ _))

/-- The term passes the checks of the tool. -/
def SecAccepted (t : Term) : Prop := initCheck secTables [(["windows_ipsec"], [kterm t])] = .ok () ∧ sanityCheck t = .ok ()

instance secAcceptedDec (t : Term) : Decidable (SecAccepted t) := inferInstanceAs (Decidable (_ ∧ _))

/-- The tool takes the filters. Whether some IPv4 packet or its mirror image matches the first term of the first of them is
`want`; whether the list of the term matches it is `got`. -/
def SecSays (name : String) (t : Term) (ts : List RTerm) (post : List Windows.Filter) (want got : Bool) : Prop :=
  ∃ p out, (∀ f ∈ (⟨true, [name], { term := t } :: ts⟩ : Windows.Filter) :: post, ∀ r ∈ f.terms, SecAccepted r.term) ∧
    Coherent p ∧ p.ver = .v4 ∧ Spec.Windows.Live { term := t } ∧
    secTranslate (⟨true, [name], { term := t } :: ts⟩ :: post) = .ok out ∧
    (Matches t p ∨ Matches t (Spec.Windows.mirror p) ↔ want = true) ∧
    (Spec.Windows.ListHits out (Spec.Windows.nameOf name t "-list") p ↔ got = true)

/-- The decidable part. -/
def secCheck (name : String) (t : Term) (ts : List RTerm) (post : List Windows.Filter) (p : Packet) (want got : Bool) : Bool :=
  decide (∀ f ∈ (⟨true, [name], { term := t } :: ts⟩ : Windows.Filter) :: post, ∀ r ∈ f.terms, SecAccepted r.term) &&
  decide (Coherent p ∧ p.ver = .v4 ∧ Spec.Windows.Live { term := t }) &&
  decide (Matches t p ∨ Matches t (Spec.Windows.mirror p) ↔ want = true) &&
  match secTranslate (⟨true, [name], { term := t } :: ts⟩ :: post) with
  | .ok out => decide (Spec.Windows.ListHits out (Spec.Windows.nameOf name t "-list") p ↔ got = true)
  | .error _ => false

theorem sec_says {name : String} {t : Term} {ts : List RTerm} {post : List Windows.Filter} {want got : Bool} (p : Packet)
    (h : secCheck name t ts post p want got = true) : SecSays name t ts post want got := by
  unfold secCheck at h
  split at h
  next out ho =>
    simp only [Bool.and_eq_true, decide_eq_true_eq] at h
    obtain ⟨⟨⟨h1, h2, h3, h4⟩, h5⟩, h6⟩ := h
    exact ⟨p, out, h1, h2, h3, h4, ho, h5, h6⟩
  · simp at h

/-- A term with addresses of both versions and ports. -/
def secTermA : Term :=
  { name := "web".toList, action := ["accept"], protocol := ["tcp"], sourceAddress := [ip4 10 0 0 0 8, ip6 32 16],
    destinationPort := [(80, 82)] }

/-- One that denies. -/
def secTermB : Term := { name := "ping".toList, action := ["deny"], protocol := ["icmp", "ipip"] }

theorem secTerms_fit : SecFits secTermA ∧ SecFits secTermB := by
  constructor
  all_goals
    exact ⟨by decide +kernel, by decide +kernel, rfl, ⟨rfl, rfl, by decide, by decide⟩, .inl rfl,
      by simp [secTermA, secTermB, ip4, ip6]; try (constructor <;> decide +kernel), by simp [secTermA, secTermB], by simp [secTermA, secTermB],
      by simp [secTermA, secTermB], by decide, by decide⟩

/-- The policy. -/
def secDemo : List Windows.Filter :=
  [⟨true, ["test"], [{ term := secTermA }, { term := secTermB }]⟩, ⟨true, ["other", "inet"], [{ term := secTermA }]⟩]

/-- The hypotheses of C120_partial hold for them. -/
example (p : Packet) (hc : Coherent p) (hv : p.ver = .v4) (out : List Cmd) (h : secTranslate secDemo = .ok out) :
    Spec.Windows.ListHits out "t_ping-list".toList p ↔ Matches secTermB p ∨ Matches secTermB (Spec.Windows.mirror p) := by
  refine C120_partial (f := ⟨true, ["test"], [{ term := secTermA }, { term := secTermB }]⟩) (name := "test")
    (r := { term := secTermB }) h (by simp [secDemo]) rfl rfl (by simp) (by decide) secTerms_fit.2 ?_ hc hv
  intro f hf _ name hn r hr _ e
  simp only [secDemo, List.mem_cons, List.not_mem_nil, or_false] at hf
  rcases hf with rfl | rfl
  · cases hn
    simp only [List.mem_cons, List.not_mem_nil, or_false] at hr
    rcases hr with rfl | rfl
    · exact absurd e (by decide)
    · rfl
  · cases hn
    simp only [List.mem_cons, List.not_mem_nil, or_false] at hr
    subst hr
    exact absurd e (by decide)

/-- The commands exist; the list of the first term matches a packet and its mirror image. -/
example : SecSays "test" secTermA [{ term := secTermB }] [⟨true, ["other", "inet"], [{ term := secTermA }]⟩] true true :=
  sec_says { proto := "tcp", src := 10 * 2 ^ 24 + 5, dst := 7, dport := 81, sport := 1024 } (by decide +kernel)

example : SecSays "test" secTermA [{ term := secTermB }] [⟨true, ["other", "inet"], [{ term := secTermA }]⟩] true true :=
  sec_says { proto := "tcp", dst := 10 * 2 ^ 24 + 5, src := 7, sport := 81, dport := 1024 } (by decide +kernel)

example : SecSays "test" secTermA [{ term := secTermB }] [⟨true, ["other", "inet"], [{ term := secTermA }]⟩] false false :=
  sec_says { proto := "tcp", src := 10 * 2 ^ 24 + 5, dst := 7, dport := 83, sport := 1024 } (by decide +kernel)

/-- The hypotheses of C121_partial, C121_refuted_policy and C121_refuted_twice hold for them. -/
example : ∃ out, secTranslate secDemo = .ok out ∧
    Cmd.rule "t_ping-rule".toList "test".toList "t_ping-list".toList "t_ping-action".toList ∈ out ∧
    Cmd.policy "test".toList ∉ out ∧ ∃ pre post, out = pre ++ .rule "t_ping-rule".toList "test".toList "t_ping-list".toList
      "t_ping-action".toList :: post ∧ Cmd.filterList "t_ping-list".toList ∈ pre := by
  have hs : (secTranslate secDemo).toOption.isSome = true := by decide +kernel
  cases h : secTranslate secDemo with
  | error e => rw [h] at hs; cases hs
  | ok out =>
    obtain ⟨_, h2, h3⟩ := C121_partial h
    have hr : Cmd.rule "t_ping-rule".toList "test".toList "t_ping-list".toList "t_ping-action".toList ∈ out :=
      h3 ⟨true, ["test"], [{ term := secTermA }, { term := secTermB }]⟩ (by simp [secDemo]) rfl "test" rfl { term := secTermB }
        (by simp) (by decide) ⟨secTerms_fit.2.keywords, by decide⟩
    refine ⟨out, rfl, hr, C121_refuted_policy h ?_ hr, ?_⟩
    · intro f hf name hn
      simp only [secDemo, List.mem_cons, List.not_mem_nil, or_false] at hf
      rcases hf with rfl | rfl <;> cases hn <;> decide
    · obtain ⟨pre, post, e⟩ := List.append_of_mem hr
      exact ⟨pre, post, e, (h2 pre _ _ _ _ post e).1⟩

/-! ### C120 fails -/

/-- C120 is false for several ranges of ports: only the last is rendered. -/
theorem C120_refuted_ranges : SecSays "test"
    { name := "t".toList, action := ["accept"], protocol := ["tcp"], destinationPort := [(80, 80), (443, 443)] } [] [] true false :=
  sec_says tcpPacket (by decide +kernel)

/-- C120 is false for port 0: the filter has no port. -/
theorem C120_refuted_zero : SecSays "test"
    { name := "t".toList, action := ["accept"], protocol := ["tcp"], destinationPort := [(0, 0)] } [] [] false true :=
  sec_says tcpPacket (by decide +kernel)

/-- C120 is false for terms with one name in filters whose names begin with the same letter: they share a list. -/
theorem C120_refuted_shared : SecSays "test"
    { name := "t".toList, action := ["accept"], protocol := ["udp"] } []
    [⟨true, ["two"], [{ term := { name := "t".toList, action := ["deny"], protocol := ["tcp"] } }]⟩] false true :=
  sec_says tcpPacket (by decide +kernel)

/-- C120 is false for protocols IPsec does not know by the name. -/
theorem C120_refuted_protocol : SecSays "test"
    { name := "t".toList, action := ["accept"], protocol := ["esp"] } [] [] true false :=
  sec_says { proto := "esp" } (by decide +kernel)

/-- C120 is false for ports without protocols: there are no filters with ports for any protocol. -/
theorem C120_refuted_ports : SecSays "test"
    { name := "t".toList, action := ["accept"], destinationPort := [(80, 80)] } [] [] true false :=
  sec_says tcpPacket (by decide +kernel)

/-- C120 is false for other options: they have no effect. -/
theorem C120_refuted_option : SecSays "test"
    { name := "t".toList, action := ["accept"], protocol := ["tcp"], option := ["rst"] } [] [] false true :=
  sec_says tcpPacket (by decide +kernel)

/-- C120 is false for terms restricted to IPv6: they apply to IPv4. -/
theorem C120_refuted_family : SecSays "test"
    { name := "t".toList, action := ["accept"], restrictAddressFamily := some "inet6" } [] [] false true :=
  sec_says tcpPacket (by decide +kernel)

/-- C120 is false for terms with icmpv6 next to other protocols: the whole term is left out. -/
theorem C120_refuted_icmpv6 : SecSays "test"
    { name := "t".toList, action := ["accept"], protocol := ["tcp", "icmpv6"] } [] [] true false :=
  sec_says tcpPacket (by decide +kernel)

end Verif.Props
