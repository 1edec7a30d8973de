import Verif.Lemmas.Pcap
import Verif.Props.Policy

/-!
Properties of the model of capirca/lib/pcap.py: C49, C50.
-/

namespace Verif.Props
open Verif Verif.Spec Verif.Spec.Bpf Verif.Pcap Policy Aclgenerator Nacaddr

/-- The terms that are rendered faithfully. Each condition beyond the tool's own checks is needed, see the
refutations. -/
structure PFits (af : String) (t : Term) : Prop where
  keywords : initCheck Pcap.tables [(["pcap"], [kterm t])] = .ok ()
  sane : sanityCheck t = .ok ()
  active : Active "pcap" (kterm t)
  untagged : Untagged t
  family : t.restrictAddressFamily = none
  src : t.sourceAddress = []
  srcEx : t.sourceAddressExclude = []
  dst : ∀ n ∈ t.destinationAddress ++ t.destinationAddressExclude, WF n
  dst6 : ∀ n ∈ t.destinationAddress ++ t.destinationAddressExclude, n.ver = .v6 → n.plen ≠ 0
  exclude : t.destinationAddressExclude = [] ∨ (t.destinationAddress = [] ∧ ∃ e, t.destinationAddressExclude = [e])
  hop : "hopopt" ∈ t.protocol → af = "inet6"
  ports : t.sourcePort ≠ [] ∨ t.destinationPort ≠ [] → t.protocol ≠ []
  icmp : t.icmpType ≠ [] → t.protocol = ["icmp"]
  code : t.icmpCode.length ≤ 1
  options : t.option ≠ [] → t.protocol = ["tcp"] ∧ af = "inet" ∧
    ∀ o ∈ t.option, o ∈ ["syn", "ack", "fin", "rst", "urg", "psh", "all"]

theorem ptables_ok : ∀ e ∈ Pcap.tables.subTokens, e.1 ∈ Pcap.tables.tokens := by decide

theorem pbasic {t : Term} (ha : Active "pcap" (kterm t)) (h : initCheck Pcap.tables [(["pcap"], [kterm t])] = .ok ()) :
    Basic t := basic_of (g := Pcap.tables) ptables_ok rfl (by decide) ha h

theorem pverbatim {t : Term} (ha : Active "pcap" (kterm t)) (h : initCheck Pcap.tables [(["pcap"], [kterm t])] = .ok ()) :
    t.verbatim = [] :=
  Cisco.listVal_falsy (unknown_unset (g := Pcap.tables) ptables_ok rfl ha h
    (a := ("verbatim", listVal t.verbatim)) (by simp [attrsOf]) (show "verbatim" ∉ Pcap.tables.tokens by decide)
    (show "verbatim" ∉ warnIfUnsupported by decide) (show startsWith "flatten" "verbatim" = false by decide))

theorem protoPrim_ok {s : String} {ts : List Tok} (h : protoPrim s = .ok ts) :
    (protoTable.lookup s).isSome = true ∧ ts = [Tok.prim (.proto ((protoTable.lookup s).getD ""))] := by
  unfold protoPrim at h
  split at h
  next t e => cases h; rw [e]; exact ⟨rfl, rfl⟩
  · cases h

/-- The protocols that both checks let pass. -/
theorem proto_known {s : String} {ts : List Tok} (h1 : (protoMap.map Prod.fst).contains s = true ∨ (protoMap.map fun e => toString e.2).contains s = true)
    (h : protoPrim (protoNumber (.str s)).text = .ok ts) :
    s ∈ ["ah", "esp", "icmp", "icmpv6", "igmp", "pim", "tcp", "udp", "vrrp", "hopopt"] ∧
    (protoNumber (.str s)).text = s := by
  have key : ∀ s ∈ protoMap.map Prod.fst ++ protoMap.map (fun e => toString e.2),
      (∃ ts, protoPrim (protoNumber (.str s)).text = .ok ts) →
      s ∈ ["ah", "esp", "icmp", "icmpv6", "igmp", "pim", "tcp", "udp", "vrrp", "hopopt"] ∧
        (protoNumber (.str s)).text = s := by
    have : ∀ s ∈ protoMap.map Prod.fst ++ protoMap.map (fun e => toString e.2),
      (protoTable.lookup (protoNumber (.str s)).text).isSome = true →
      s ∈ ["ah", "esp", "icmp", "icmpv6", "igmp", "pim", "tcp", "udp", "vrrp", "hopopt"] ∧
        (protoNumber (.str s)).text = s := by decide +kernel
    intro s hs ⟨ts, h⟩
    exact this s hs (protoPrim_ok h).1
  refine key s ?_ ⟨ts, h⟩
  rw [List.mem_append, ← List.contains_iff_mem, ← List.contains_iff_mem]
  exact h1

theorem proto_factor {loc : Ver → Nat → Prop} {p : Packet} (hs : Sound p) {s : String} {ts : List Tok}
    (hk : s ∈ ["ah", "esp", "icmp", "icmpv6", "igmp", "pim", "tcp", "udp", "vrrp", "hopopt"])
    (h : protoPrim s = .ok ts) (hh : s = "hopopt" → p.ver = .v6) : Factor loc p ts (p.proto = s) := by
  simp only [List.mem_cons, List.not_mem_nil, or_false] at hk
  have h6 : p.proto = "icmpv6" → p.ver = .v6 := by
    intro h
    cases hv : p.ver with
    | v6 => rfl
    | v4 => exact absurd h (hs.icmp4 hv)
  rcases hk with rfl | rfl | rfl | rfl | rfl | rfl | rfl | rfl | rfl | rfl <;> cases h <;> refine (factor_prim _).congr ?_ <;>
    simp [PrimHolds, protoNames]
  · exact h6
  · exact fun _ => hh rfl

theorem proto_cond {loc : Ver → Nat → Prop} {p : Packet} (hs : Sound p) {l : List String} {ps : List Proto} {ts : List Tok}
    (h1 : termProtocols (l.map .str) = .ok ps) (h2 : protoStatement (ps.map Proto.text) = .ok ts)
    (hh : "hopopt" ∈ l → p.ver = .v6) :
    Cond loc p ts (OneOf l p.proto) ∧ ps.map Proto.text = l ∧
      (∀ s ∈ l, s ∈ ["ah", "esp", "icmp", "icmpv6", "igmp", "pim", "tcp", "udp", "vrrp", "hopopt"]) := by
  have hps := termProtocols_ok h1
  have hall : ∀ s ∈ l, (protoMap.map Prod.fst).contains s = true ∨ (protoMap.map fun e => toString e.2).contains s = true := by
    unfold termProtocols at h1
    split at h1
    · cases h1
    next hn =>
      intro s hs
      simp only [List.any_map, List.any_eq_true, not_exists, not_and, Function.comp] at hn
      have := hn s hs
      simp only [Proto.known, Proto.text, Bool.not_eq_true, Bool.and_eq_false_iff, Bool.not_eq_false'] at this
      exact this
  unfold protoStatement at h2
  obtain ⟨q, h3, h4⟩ := bind_ok h2
  cases h4
  have hk : ∀ s ∈ l, s ∈ ["ah", "esp", "icmp", "icmpv6", "igmp", "pim", "tcp", "udp", "vrrp", "hopopt"] ∧
      (protoNumber (.str s)).text = s := by
    intro s hs'
    obtain ⟨b, hb⟩ := Cisco.listM_each h3 (protoNumber (.str s)).text (by
      rw [hps]
      exact List.mem_map.2 ⟨_, List.mem_map.2 ⟨_, List.mem_map.2 ⟨s, hs', rfl⟩, rfl⟩, rfl⟩)
    exact proto_known (hall s hs') hb
  have htxt : ps.map Proto.text = l := by
    rw [hps, List.map_map, List.map_map]
    exact (List.map_congr_left fun s hs => (hk s hs).2).trans (List.map_id _)
  refine ⟨?_, htxt, fun s hs => (hk s hs).1⟩
  rw [htxt] at h3
  have hq : q = l.map fun s => [Tok.prim (.proto ((protoTable.lookup s).getD ""))] := by
    have h4 := listM_ok h3
    clear h1 h2 h3 hps hall htxt hk hh
    induction h4 with
    | nil => rfl
    | cons a _ ih => rw [List.map_cons, ← ih, (protoPrim_ok a).2]
  rw [hq]
  refine (join_or_map (P := fun s => p.proto = s) fun s hs' => ?_).congr ?_
  · obtain ⟨b, hb⟩ := Cisco.listM_each h3 s hs'
    rw [← (protoPrim_ok hb).2]
    exact proto_factor hs (hk s hs').1 hb (fun e => hh (e ▸ hs'))
  · unfold OneOf
    constructor
    · rintro (h | ⟨s, h, rfl⟩)
      · exact .inl h
      · exact .inr h
    · rintro (h | h)
      · exact .inl h
      · exact .inr ⟨_, h, rfl⟩

theorem icmpCond_cond {loc : Ver → Nat → Prop} {p : Packet} (hs : Sound p) {t : Term} {ts : List Tok}
    (h : icmpCond t t.protocol = .ok ts) (hi : t.icmpType ≠ [] → t.protocol = ["icmp"]) (hc : t.icmpCode.length ≤ 1)
    (hz : t.icmpCode ≠ [] → t.icmpType ≠ []) (hp : OneOf t.protocol p.proto) :
    Cond loc p ts (OneOf t.icmpType p.icmpType ∧ OneOf t.icmpCode p.icmpCode) := by
  unfold icmpCond at h
  by_cases he : t.icmpType = []
  · rw [he] at h
    cases h
    have : t.icmpCode = [] := by
      by_cases h : t.icmpCode = []
      · exact h
      · exact absurd he (hz h)
    rw [he, this]
    exact .inl ⟨rfl, .inl rfl, .inl rfl⟩
  · have hpr := hi he
    rw [if_neg (by simpa using he), if_pos hpr] at h
    obtain ⟨l, h1, h2⟩ := bind_ok h
    cases h2
    obtain ⟨tbl, ht, hl, nums, rfl, _, hperm⟩ := (C34_types he l).1 h1
    have htbl : tbl = icmp4 := by
      rcases ht with ⟨_, _, h⟩ | ⟨h, _⟩
      · exact h
      · cases h
    subst htbl
    have hpp : p.proto = "icmp" := by
      rw [hpr] at hp
      rcases hp with hp | hp
      · cases hp
      · exact List.mem_singleton.1 hp
    have hv : p.ver = .v4 := by
      cases hv : p.ver with
      | v4 => rfl
      | v6 => exact absurd hpp (hs.icmp6 hv)
    have hf : (nums.map some).filterMap id = nums := by rw [List.filterMap_map]; exact List.filterMap_some
    rw [hf]
    refine (icmp_cond hc).congr ?_
    have hne : nums ≠ [] := by
      intro e
      rw [e] at hperm
      have := hperm.symm.eq_nil
      cases hty : t.icmpType with
      | nil => exact he hty
      | cons x xs =>
        obtain ⟨n, hn⟩ := hl x (hty ▸ .head _)
        rw [hty, List.filterMap_cons, hn] at this
        cases this
    have hnd : (icmp4.map Prod.fst).Nodup ∧ (icmp4.map Prod.snd).Nodup := by decide
    have h1 : (∃ x ∈ nums, PrimHolds loc p (.icmpType x)) ↔ p.icmpType ∈ t.icmpType := by
      simp only [PrimHolds, hv, hpp, true_and]
      constructor
      · rintro ⟨x, hx, hm⟩
        obtain ⟨y, hy, hl⟩ := List.mem_filterMap.1 (hperm.mem_iff.1 hx)
        have hm2 : (y, x) ∈ icmp4 := Cisco.mem_of_lookup' hl
        have : ∀ a ∈ icmp4, ∀ b ∈ icmp4, a.2 = b.2 → a = b := by decide
        have := this _ hm _ hm2 rfl
        rw [Prod.mk.injEq] at this
        exact this.1 ▸ hy
      · intro hm
        obtain ⟨n, hn⟩ := hl _ hm
        exact ⟨n, hperm.mem_iff.2 (List.mem_filterMap.2 ⟨_, hm, hn⟩), Cisco.mem_of_lookup' hn⟩
    have h2 : (∀ c ∈ t.icmpCode, PrimHolds loc p (.icmpCode c)) ↔ OneOf t.icmpCode p.icmpCode := by
      simp only [PrimHolds, hv, hpp, true_and]
      unfold OneOf
      rcases hcs : t.icmpCode with _ | ⟨c, _ | _⟩
      · simp
      · simp
      · rw [hcs] at hc; simp at hc
    rw [h1, h2]
    unfold OneOf
    simp [hne, he]

theorem flags_bits : ∀ o ∈ ["syn", "ack", "fin", "rst", "urg", "psh", "all"], (optionFlags o).flatMap maskBits =
    if o = "all" then ["syn", "ack", "fin", "rst", "urg", "psh"] else [o] := by decide +kernel

theorem options_cond {loc : Ver → Nat → Prop} {p : Packet} (hs : Sound p) {l : List String}
    (h : ∀ o ∈ l, o ∈ ["syn", "ack", "fin", "rst", "urg", "psh", "all"]) (hv : l ≠ [] → p.ver = .v4 ∧ p.proto = "tcp") :
    Cond loc p (tcpOptions l) (∀ o ∈ l, p.hasOption o = true) := by
  unfold tcpOptions
  dsimp only
  by_cases hl : l = []
  · subst hl; exact .inl ⟨rfl, by simp⟩
  · obtain ⟨hv, hp⟩ := hv hl
    have hne : l.flatMap optionFlags ≠ [] := by
      cases l with
      | nil => exact absurd rfl hl
      | cons o l =>
        intro e
        rw [List.flatMap_cons, List.append_eq_nil_iff] at e
        have := flags_bits o (h o (.head _))
        rw [e.1] at this
        split at this <;> cases this
    rw [if_neg (by simpa using hne)]
    refine .inr ((factor_prim _).congr ?_)
    simp only [PrimHolds, hv, hp, true_and, List.flatMap_assoc]
    have hm : ∀ f, f ∈ l.flatMap (fun o => (optionFlags o).flatMap maskBits) ↔
        (f ∈ l ∧ f ≠ "all") ∨ ("all" ∈ l ∧ f ∈ ["syn", "ack", "fin", "rst", "urg", "psh"]) := by
      intro f
      rw [List.mem_flatMap]
      constructor
      · rintro ⟨o, ho, hf⟩
        rw [flags_bits o (h o ho)] at hf
        split at hf
        next e => exact .inr ⟨e ▸ ho, hf⟩
        next e => rw [List.mem_singleton.1 hf]; exact .inl ⟨ho, e⟩
      · rintro (⟨h1, h2⟩ | ⟨h1, h2⟩)
        · exact ⟨f, h1, by rw [flags_bits f (h f h1), if_neg h2]; exact .head _⟩
        · exact ⟨_, h1, by rw [flags_bits _ (h _ h1), if_pos rfl]; exact h2⟩
    simp only [hm]
    constructor
    · intro k o ho
      by_cases ha : o = "all"
      · subst ha
        rw [hs.all]
        intro f hf
        exact ((k f hf).2 (.inr ⟨ho, hf⟩)).1
      · have h6 : o ∈ ["syn", "ack", "fin", "rst", "urg", "psh"] := by
          have := h o ho
          simp only [List.mem_cons, List.not_mem_nil, or_false, ha] at this ⊢
          exact this
        exact ((k o h6).2 (.inl ⟨ho, ha⟩)).1
    · intro k f hf
      constructor
      · exact fun h => h.2
      · intro hm
        refine ⟨?_, hm⟩
        rcases hm with ⟨h1, _⟩ | ⟨h1, _⟩
        · exact k f h1
        · exact hs.all.1 (k _ h1) f hf

theorem port_any {loc : Ver → Nat → Prop} {p : Packet} (ports : List PortRange) (dir : String) :
    ∃ P, Cond loc p (portStatement ports dir) P := by
  refine ⟨_, join_or_map (P := fun r => ∃ q, portPrim dir r = [.prim q] ∧ PrimHolds loc p q) fun r _ => ?_⟩
  unfold portPrim
  split
  · refine (factor_prim _).congr ⟨fun h => ⟨_, rfl, h⟩, ?_⟩
    rintro ⟨q, h, k⟩; cases h; exact k
  · refine (factor_prim _).congr ⟨fun h => ⟨_, rfl, h⟩, ?_⟩
    rintro ⟨q, h, k⟩; cases h; exact k

theorem options_any {loc : Ver → Nat → Prop} {p : Packet} (l : List String) (b : Bool) :
    ∃ P, Cond loc p (if b = true then tcpOptions l else []) P := by
  cases b with
  | false => exact ⟨True, cond_nil⟩
  | true =>
    rw [if_pos rfl]
    unfold tcpOptions
    dsimp only
    split
    · exact ⟨True, cond_nil⟩
    · exact ⟨_, .inr (factor_prim _)⟩

theorem icmp_any {loc : Ver → Nat → Prop} {p : Packet} {t : Term} {ps : List String} {ts : List Tok}
    (h : icmpCond t ps = .ok ts) (hc : t.icmpCode.length ≤ 1) : ∃ P, Cond loc p ts P := by
  unfold icmpCond at h
  split at h
  · cases h; exact ⟨True, cond_nil⟩
  split at h
  · obtain ⟨l, _, h2⟩ := bind_ok h
    cases h2
    exact ⟨_, icmp_cond hc⟩
  split at h
  · obtain ⟨l, _, h2⟩ := bind_ok h
    cases h2
    exact ⟨True, cond_nil⟩
  · cases h

/-! ### C49: terms -/

/-- The packet goes in the direction of the filter. -/
def Towards (dir : String) (loc : Ver → Nat → Prop) (p : Packet) : Prop :=
  (dir = "in" → loc p.ver p.dst) ∧ (dir = "out" → loc p.ver p.src)

theorem checkAf_match {af : String} {inc exc : List Net} {p : Packet} (hf : OfFamily af p) (haf : af ∈ ["inet", "inet6", "mixed"]) :
    match checkAf af inc with
    | none => ¬ AddrMatch inc exc p.ver p.dst
    | some l => (∀ n ∈ l, n ∈ inc) ∧ (l = [] ↔ inc = []) ∧ (AddrMatch l exc p.ver p.dst ↔ AddrMatch inc exc p.ver p.dst) := by
  unfold checkAf
  by_cases he : inc = []
  · subst he; simp
  · rw [if_neg (by simpa using he)]
    by_cases hm : af = "mixed"
    · rw [if_pos hm]; simp
    · rw [if_neg hm]
      have hv : p.ver = afVer af := by
        unfold afVer
        simp only [List.mem_cons, List.not_mem_nil, or_false] at haf
        rcases haf with rfl | rfl | rfl
        · rw [if_neg (by decide)]; exact hf.1 rfl
        · rw [if_pos rfl]; exact hf.2 rfl
        · exact absurd rfl hm
      have hd : Den (inc.filter fun n => n.ver == afVer af) p.ver p.dst ↔ Den inc p.ver p.dst := by
        unfold Den
        constructor
        · rintro ⟨n, hn, h⟩; exact ⟨n, (List.mem_filter.1 hn).1, h⟩
        · rintro ⟨n, hn, h⟩
          exact ⟨n, List.mem_filter.2 ⟨hn, by rw [← hv, h.1]; exact beq_self_eq_true _⟩, h⟩
      dsimp only
      by_cases hx : (inc.filter fun n => n.ver == afVer af) = []
      · rw [if_pos (by simp only [hx, List.isEmpty_nil])]
        rintro ⟨h | h, _⟩
        · exact he h
        · rw [← hd, hx] at h
          obtain ⟨n, hn, _⟩ := h
          cases hn
      · rw [if_neg (by simpa only [List.isEmpty_iff] using hx)]
        refine ⟨fun n hn => (List.mem_filter.1 hn).1, by simp only [hx, he], ?_⟩
        unfold AddrMatch
        rw [hd]
        simp only [hx, he]

/-- Terms without addresses of the family are left out, others become a condition. -/
theorem term_cond {af : String} (haf : af ∈ ["inet", "inet6", "mixed"]) {t : Term} (f : PFits af t) {dir : String}
    {r : Option (List Tok)} (h : Pcap.renderTerm af dir t = .ok r) {p : Packet} (hs : Sound p) (hf : OfFamily af p)
    (loc : Ver → Nat → Prop) :
    (∃ ts, r = some ts ∧ Cond loc p ts (Matches t p ∧ (ts ≠ [] → Towards dir loc p))) ∨ (r = none ∧ ¬ Matches t p) := by
  rw [matches_basic (pbasic f.active f.keywords) f.untagged (.inl f.family)]
  unfold Pcap.renderTerm at h
  obtain ⟨ps, h1, h⟩ := bind_ok h
  unfold Pcap.printTerm at h
  have hon : Cisco.onPlatform "pcap" t = true :=
    (Cisco.onPlatform_iff (c := { Cisco.ios with platform := "pcap" })).2 f.active
  rw [hon] at h
  simp only [Bool.not_true, Bool.false_eq_true, if_false] at h
  split at h
  · cases h
  split at h
  · cases h
  rw [f.src] at h
  simp only [show checkAf af [] = some [] from rfl] at h
  have hd := checkAf_match (inc := t.destinationAddress) (exc := t.destinationAddressExclude) hf haf
  split at h
  next he =>
    cases h
    rw [he] at hd
    exact .inr ⟨rfl, fun k => hd k.1.2⟩
  next d he =>
    rw [he] at hd
    obtain ⟨hsub, hnil, hmatch⟩ := hd
    obtain ⟨l, h2, h3⟩ := bind_ok h
    cases h3
    unfold otherConds at h2
    split at h2
    · cases h2
    next hpe =>
    obtain ⟨proto, h4, h2⟩ := bind_ok h2
    obtain ⟨icmp, h5, h2⟩ := bind_ok h2
    cases h2
    obtain ⟨cp, htxt, hk⟩ := proto_cond (loc := loc) hs h1 h4 (fun h => hf.2 (f.hop h))
    rw [htxt] at h5 h4 ⊢
    have hpe : t.protocolExcept = [] := by simpa using hpe
    have dstC : Cond loc p (addrStatement d t.destinationAddressExclude)
        (AddrMatch t.destinationAddress t.destinationAddressExclude p.ver p.dst) := by
      refine (addr_cond ?_ ?_ ?_).congr hmatch
      · intro n hn
        refine f.dst n ?_
        rw [List.mem_append] at hn ⊢
        exact hn.imp (hsub n) id
      · intro n hn
        refine f.dst6 n ?_
        rw [List.mem_append] at hn ⊢
        exact hn.imp (hsub n) id
      · rcases f.exclude with h | ⟨h, k⟩
        · exact .inl h
        · exact .inr ⟨hnil.2 h, k⟩
    have main : Cond loc p (join [.and] (addrStatement [] t.sourceAddressExclude ::
        addrStatement d t.destinationAddressExclude :: [proto, portStatement t.sourcePort "src",
          portStatement t.destinationPort "dst", icmp, if t.protocol.contains "tcp" = true then tcpOptions t.option else []]))
        ((AddrMatch t.sourceAddress t.sourceAddressExclude p.ver p.src ∧
          AddrMatch t.destinationAddress t.destinationAddressExclude p.ver p.dst) ∧
        MatchProto t p ∧ (PortMatch t.sourcePort p.sport ∧ PortMatch t.destinationPort p.dport) ∧
        (OneOf t.icmpType p.icmpType ∧ OneOf t.icmpCode p.icmpCode) ∧
        (∀ o ∈ t.option, p.hasOption o = true)) := by
      have srcC : Cond loc p (addrStatement [] t.sourceAddressExclude)
          (AddrMatch t.sourceAddress t.sourceAddressExclude p.ver p.src) := by
        rw [f.src, f.srcEx]
        exact .inl ⟨rfl, .inl rfl, by simp [Den]⟩
      by_cases hp : OneOf t.protocol p.proto
      · have hports : t.sourcePort ≠ [] ∨ t.destinationPort ≠ [] → p.proto ∈ ["tcp", "udp", "sctp"] := by
          intro hne
          have h1 := f.ports hne
          have h2 := hp.resolve_left h1
          have h3 := sane_ports f.sane (pverbatim f.active f.keywords) hne h2
          have h4 := hk _ h2
          have : ∀ s ∈ ["ah", "esp", "icmp", "icmpv6", "igmp", "pim", "tcp", "udp", "vrrp", "hopopt"], s ∈ protosWithPorts →
            s ∈ ["tcp", "udp", "sctp"] := by decide
          exact this _ h4 h3
        have hopt : Cond loc p (if t.protocol.contains "tcp" = true then tcpOptions t.option else [])
            (∀ o ∈ t.option, p.hasOption o = true) := by
          by_cases ho : t.option = []
          · rw [ho]
            refine .inl ⟨?_, by simp⟩
            split <;> rfl
          · obtain ⟨h1, h2, h3⟩ := f.options ho
            rw [if_pos (by rw [h1]; rfl)]
            refine options_cond hs h3 fun _ => ⟨hf.1 h2, ?_⟩
            rw [h1] at hp
            rcases hp with h | h
            · cases h
            · exact List.mem_singleton.1 h
        have := join_and (loc := loc) (p := p) (ys := [(_, _), (_, _), (_, _), (_, _), (_, _), (_, _), (_, _)]) (by
          intro y hy
          simp only [List.mem_cons, List.not_mem_nil, or_false] at hy
          rcases hy with rfl | rfl | rfl | rfl | rfl | rfl | rfl
          · exact srcC
          · exact dstC
          · exact cp
          · exact port_cond (ports := t.sourcePort) (.inl ⟨rfl, rfl⟩) (fun h => hports (.inl h))
          · exact port_cond (ports := t.destinationPort) (.inr ⟨rfl, rfl⟩) (fun h => hports (.inr h))
          · exact icmpCond_cond hs h5 f.icmp f.code (sane_codes f.sane) hp
          · exact hopt)
        refine Cond.congr (ts := join [.and] _) this ?_
        simp only [List.mem_cons, List.not_mem_nil, or_false, forall_eq_or_imp, forall_eq]
        unfold MatchProto
        rw [hpe]
        simp only [List.not_mem_nil, not_false_iff, and_true]
        constructor
        · rintro ⟨a, b, c, d, e, f, g⟩; exact ⟨⟨a, b⟩, c, ⟨d, e⟩, f, g⟩
        · rintro ⟨⟨a, b⟩, c, ⟨d, e⟩, f, g⟩; exact ⟨a, b, c, d, e, f, g⟩
      · obtain ⟨P1, k1⟩ := port_any (loc := loc) (p := p) t.sourcePort "src"
        obtain ⟨P2, k2⟩ := port_any (loc := loc) (p := p) t.destinationPort "dst"
        obtain ⟨P3, k3⟩ := icmp_any (loc := loc) (p := p) h5 f.code
        obtain ⟨P4, k4⟩ := options_any (loc := loc) (p := p) t.option (t.protocol.contains "tcp")
        have := join_and (loc := loc) (p := p) (ys := [(_, _), (_, _), (_, _), (_, _), (_, _), (_, _), (_, _)]) (by
          intro y hy
          simp only [List.mem_cons, List.not_mem_nil, or_false] at hy
          rcases hy with rfl | rfl | rfl | rfl | rfl | rfl | rfl
          · exact srcC
          · exact dstC
          · exact cp
          · exact k1
          · exact k2
          · exact k3
          · exact k4)
        refine Cond.congr (ts := join [.and] _) this ?_
        simp only [List.mem_cons, List.not_mem_nil, or_false, forall_eq_or_imp, forall_eq]
        constructor
        · rintro ⟨_, _, c, _⟩; exact absurd c hp
        · rintro ⟨_, c, _⟩; exact absurd c.1 hp
    refine .inl ⟨_, rfl, ?_⟩
    generalize join [.and] _ = cond at main
    revert main
    generalize ((AddrMatch t.sourceAddress t.sourceAddressExclude p.ver p.src ∧ _) ∧ _) = M
    intro main
    unfold addDirection Towards
    by_cases hc : cond = []
    · subst hc
      rcases main with ⟨_, h⟩ | h
      · exact .inl ⟨rfl, h, by simp⟩
      · exact absurd rfl (factor_ne h)
    · have hF : Factor loc p cond M := by
        rcases main with ⟨h, _⟩ | h
        · exact absurd h hc
        · exact h
      rw [if_neg (by simpa using hc)]
      have two : ∀ (d : String), Cond loc p (join [.and] [[.prim (.localhost d)], cond]) (PrimHolds loc p (.localhost d) ∧ M) := by
        intro d
        have := join_and (loc := loc) (p := p) (ys := [([.prim (.localhost d)], PrimHolds loc p (.localhost d)), (cond, M)]) (by
          intro y hy
          simp only [List.mem_cons, List.not_mem_nil, or_false] at hy
          rcases hy with rfl | rfl
          · exact .inr (factor_prim _)
          · exact .inr hF)
        exact this.congr (by simp)
      have jne : ∀ d, join [Tok.and] [[.prim (.localhost d)], cond] ≠ [] := by
        intro d h
        unfold join at h
        simp at h
      by_cases hi : dir = "in"
      · rw [if_pos hi]
        refine (two "dst").congr ?_
        have := jne "dst"
        simp [PrimHolds, hi, this, and_comm]
      · rw [if_neg hi]
        by_cases ho : dir = "out"
        · rw [if_pos ho]
          refine (two "src").congr ?_
          have := jne "src"
          simp [PrimHolds, ho, this, and_comm]
        · rw [if_neg ho]
          exact .inr (hF.congr (by simp [hi, ho]))

/-- C49 (part): for the terms of `PFits`, the expression matches exactly the packets the term matches (in the
direction of the filter, unless the term has no condition); a term that is left out matches no packet of the family.
Missing: the terms outside `PFits`, in particular all with source addresses, see the refutations. -/
theorem C49_partial {af : String} (haf : af ∈ ["inet", "inet6", "mixed"]) {t : Term} (f : PFits af t) {dir : String}
    {r : Option (List Tok)} (h : Pcap.renderTerm af dir t = .ok r) {p : Packet} (hs : Sound p) (hf : OfFamily af p)
    (loc : Ver → Nat → Prop) :
    (∃ ts, r = some ts ∧ (Selects loc ts p ↔ Matches t p ∧ (ts ≠ [] → Towards dir loc p))) ∨
    (r = none ∧ ¬ Matches t p) := by
  rcases term_cond haf f h hs hf loc with ⟨ts, h1, h2⟩ | h
  · exact .inl ⟨ts, h1, selects_cond h2⟩
  · exact .inr h

/-! ### C50: filters -/

instance : DecidablePred Counts := fun r => by unfold Counts; infer_instance

/-- The term has no condition. -/
def Blank (t : Term) : Prop :=
  t.sourceAddress = [] ∧ t.sourceAddressExclude = [] ∧ t.destinationAddress = [] ∧ t.destinationAddressExclude = [] ∧
  t.protocol = [] ∧ t.sourcePort = [] ∧ t.destinationPort = [] ∧ t.icmpType = [] ∧ t.option = []

/-- The term has addresses of the family of the filter, or none at all. -/
def HasFamily (af : String) (t : Term) : Prop :=
  t.destinationAddress = [] ∨ ∃ n ∈ t.destinationAddress, (af = "inet" → n.ver = .v4) ∧ (af = "inet6" → n.ver = .v6)

/-- The actions of the packets that are to be captured. -/
def wanted (invert : Bool) : List String := if invert then ["deny", "reject"] else ["accept"]

/-- The family of a filter with the options. -/
def FamilyIs (options : List String) (af : String) : Prop :=
  (af ∈ ["inet", "inet6", "mixed"] ∧ af ∈ options) ∨
  (af = "mixed" ∧ "inet" ∉ options ∧ "inet6" ∉ options ∧ "mixed" ∉ options)

/-- A filter with one term whose packets are to be captured, at most one term with a condition before it and only terms
without condition after it, these of the other action. -/
structure OneTerm (invert : Bool) (af : String) (ts pre : List PTerm) (y : PTerm) (post : List PTerm) : Prop where
  counting : ts.filter (fun r => decide (Counts r)) = pre ++ y :: post
  short : pre.length ≤ 1
  good : ∃ a, y.term.action = [a] ∧ a ∈ wanted invert
  before : ∀ d ∈ pre, (∃ a, d.term.action = [a] ∧ a ∈ wanted (!invert)) ∧ ¬ Blank d.term
  after : ∀ d ∈ post, (∃ a, d.term.action = [a] ∧ a ∈ wanted (!invert)) ∧ Blank d.term
  cond : pre = [] ∨ ¬ Blank y.term
  addr : HasFamily af y.term

theorem clauses_cons {af dir : String} {t : Term} {ts : List Term} {l : List (List Tok)}
    (h : clauses af dir (t :: ts) = .ok l) :
    ∃ r l', Pcap.renderTerm af dir t = .ok r ∧ clauses af dir ts = .ok l' ∧ l = r.toList ++ l' := by
  unfold clauses at h
  obtain ⟨q, h1, h2⟩ := bind_ok h
  cases h2
  rw [listM] at h1
  obtain ⟨r, h3, h1⟩ := bind_ok h1
  obtain ⟨rs, h4, h1⟩ := bind_ok h1
  cases h1
  refine ⟨r, rs.filterMap id, h3, ?_, ?_⟩
  · unfold clauses; rw [h4]; rfl
  · cases r <;> simp

theorem clauses_mk {af dir : String} {t : Term} {ts : List Term} {r : Option (List Tok)} {l : List (List Tok)}
    (h1 : Pcap.renderTerm af dir t = .ok r) (h2 : clauses af dir ts = .ok l) :
    clauses af dir (t :: ts) = .ok (r.toList ++ l) := by
  unfold clauses at h2 ⊢
  obtain ⟨q, h3, h4⟩ := bind_ok h2
  cases h4
  rw [listM, h1, h3]
  cases r <;> rfl

theorem clauses_active {af dir : String} {ts : List Term} {l : List (List Tok)} (h : clauses af dir ts = .ok l) :
    clauses af dir (ts.filter (Cisco.onPlatform "pcap")) = .ok l := by
  induction ts generalizing l with
  | nil => exact h
  | cons t ts ih =>
    obtain ⟨r, l', h1, h2, rfl⟩ := clauses_cons h
    cases hp : Cisco.onPlatform "pcap" t with
    | true => rw [List.filter_cons_of_pos hp]; exact clauses_mk h1 (ih h2)
    | false =>
      rw [List.filter_cons_of_neg (by simp [hp])]
      unfold Pcap.renderTerm at h1
      obtain ⟨ps, _, h1⟩ := bind_ok h1
      unfold Pcap.printTerm at h1
      rw [hp] at h1
      cases h1
      exact ih h2

theorem splitTerms_spec {ts : List PTerm} {q : List Term × List Term} (h : splitTerms ts = .ok q) :
    q.1 = (ts.filter fun r => !r.expired && r.term.action.head? == some "accept").map PTerm.term ∧
    q.2 = (ts.filter fun r => !r.expired && (r.term.action.head? == some "deny" || r.term.action.head? == some "reject")).map
      PTerm.term := by
  induction ts generalizing q with
  | nil => cases h; exact ⟨rfl, rfl⟩
  | cons r ts ih =>
    rw [splitTerms] at h
    cases he : r.expired with
    | true =>
      rw [he] at h
      simp only [if_true] at h
      have := ih h
      simpa [he] using this
    | false =>
      rw [he] at h
      simp only [Bool.false_eq_true, if_false] at h
      split at h
      · cases h
      next a rest ha =>
      obtain ⟨_, _, h⟩ := bind_ok h
      obtain ⟨q', h1, h⟩ := bind_ok h
      have := ih h1
      clear h1
      by_cases h1 : a = "accept"
      · rw [if_pos h1] at h
        cases h
        simp [he, ha, h1, this.1, this.2]
      · rw [if_neg h1] at h
        by_cases h2 : a = "deny" ∨ a = "reject"
        · rw [if_pos h2] at h
          cases h
          rcases h2 with rfl | rfl <;> simp [he, ha, this.1, this.2]
        · rw [if_neg h2] at h
          cases h
          rw [not_or] at h2
          rw [List.filter_cons_of_neg (by simp [ha, h1]), List.filter_cons_of_neg (by simp [ha, h2.1, h2.2])]
          exact this

theorem counts_filter {ts : List PTerm} {acts : List String} (hn : "next" ∉ acts) :
    ((ts.filter fun r => !r.expired && acts.any fun a => r.term.action.head? == some a).map PTerm.term).filter
      (Cisco.onPlatform "pcap") =
    ((ts.filter fun r => decide (Counts r)).filter fun r => acts.any fun a => r.term.action.head? == some a).map PTerm.term := by
  rw [List.filter_map, List.filter_filter, List.filter_filter]
  congr 1
  apply List.filter_congr
  intro r _
  have hp := Cisco.onPlatform_iff (c := { Cisco.ios with platform := "pcap" }) (t := r.term)
  rw [Bool.eq_iff_iff]
  simp only [Function.comp, Bool.and_eq_true, Bool.not_eq_true', List.any_eq_true, beq_iff_eq, decide_eq_true_eq]
  constructor
  · rintro ⟨h1, h2, a, h3, h4⟩
    have := hp.1 h1
    refine ⟨⟨a, h3, h4⟩, h2, this.1, this.2, ?_⟩
    intro h
    rw [h] at h4
    cases h4
    exact hn h3
  · rintro ⟨⟨a, h3, h4⟩, h2, h5, h6, _⟩
    exact ⟨hp.2 ⟨h5, h6⟩, h2, a, h3, h4⟩

theorem join_ne {op x : List Tok} {l : List (List Tok)} (h : x ∈ l) (hx : x ≠ []) : join op l ≠ [] := by
  unfold join
  dsimp only
  rw [if_neg (by
    rw [List.isEmpty_iff]
    intro e
    have : x ∈ l.filter fun x => !x.isEmpty := List.mem_filter.2 ⟨h, by simpa using hx⟩
    rw [e] at this
    cases this)]
  simp

theorem join_blank {op : List Tok} {l : List (List Tok)} (h : ∀ x ∈ l, x = []) : join op l = [] := by
  unfold join
  dsimp only
  rw [if_pos (by
    rw [List.isEmpty_iff, List.filter_eq_nil_iff]
    intro x hx
    rw [h x hx]
    decide)]

theorem addr_ne {inc exc : List Net} (h6 : ∀ n ∈ inc ++ exc, n.ver = .v6 → n.plen ≠ 0) (h : inc ≠ [] ∨ exc ≠ [])
    (he : exc = [] ∨ inc = []) : addrStatement inc exc ≠ [] := by
  have n6 : ∀ n ∈ inc ++ exc, notAll6 n = true := fun n hn => notAll6_true (h6 n hn)
  unfold addrStatement
  rcases he with rfl | rfl
  · rw [List.append_nil] at n6
    rw [if_neg (by simp), if_pos (by rfl), List.filter_eq_self.2 n6]
    cases inc with
    | nil => simp at h
    | cons n l => exact join_ne (.head _) (by simp [dstNet])
  · rw [List.nil_append] at n6
    cases exc with
    | nil => simp at h
    | cons n l =>
      rw [if_neg (by
        simp only [List.any_eq_true, not_exists, not_and, Bool.not_eq_true', Bool.not_eq_false]
        exact n6), if_neg (by simp)]
      exact join_ne (.tail _ (.head _)) (join_ne (.head _) (by simp))

/-- A term without condition becomes a blank line, other terms do not; a term with addresses of the family is not left
out. -/
theorem render_blank {af : String} (haf : af ∈ ["inet", "inet6", "mixed"]) {t : Term} (f : PFits af t)
    {r : Option (List Tok)} (h : Pcap.renderTerm af "" t = .ok r) : (Blank t → r = some []) ∧ (¬ Blank t → r ≠ some []) ∧
    (HasFamily af t → r ≠ none) := by
  unfold Pcap.renderTerm at h
  obtain ⟨ps, h1, h⟩ := bind_ok h
  unfold Pcap.printTerm at h
  have hon : Cisco.onPlatform "pcap" t = true :=
    (Cisco.onPlatform_iff (c := { Cisco.ios with platform := "pcap" })).2 f.active
  rw [hon] at h
  simp only [Bool.not_true, Bool.false_eq_true, if_false] at h
  split at h
  · cases h
  split at h
  · cases h
  rw [f.src, f.srcEx] at h
  simp only [show checkAf af [] = some [] from rfl] at h
  split at h
  next he =>
    cases h
    refine ⟨?_, by simp, ?_⟩
    · intro b
      rw [b.2.2.1] at he
      cases he
    · rintro (b | ⟨n, hn, k4, k6⟩)
      · rw [b] at he
        cases he
      · unfold checkAf at he
        rw [if_neg (by simpa using List.ne_nil_of_mem hn)] at he
        by_cases hm : af = "mixed"
        · rw [if_pos hm] at he; cases he
        · rw [if_neg hm] at he
          dsimp only at he
          have hv : (n.ver == afVer af) = true := by
            rw [beq_iff_eq]
            unfold afVer
            simp only [List.mem_cons, List.not_mem_nil, or_false] at haf
            rcases haf with rfl | rfl | rfl
            · exact k4 rfl
            · exact k6 rfl
            · exact absurd rfl hm
          rw [if_neg (by
            rw [List.isEmpty_iff]
            exact List.ne_nil_of_mem (List.mem_filter.2 ⟨hn, hv⟩))] at he
          cases he
  next d he =>
    obtain ⟨l, h2, h3⟩ := bind_ok h
    cases h3
    unfold otherConds at h2
    split at h2
    · cases h2
    obtain ⟨proto, h4, h2⟩ := bind_ok h2
    obtain ⟨icmp, h5, h2⟩ := bind_ok h2
    cases h2
    have hps := termProtocols_ok h1
    have hdir : ∀ c, addDirection "" c = c := by
      intro c
      unfold addDirection
      split <;> rfl
    rw [hdir]
    refine ⟨?_, ?_, by simp⟩
    · rintro ⟨_, _, b3, b4, b5, b6, b7, b8, b9⟩
      rw [b3] at he
      cases he
      rw [b5] at hps
      subst hps
      cases h4
      unfold icmpCond at h5
      rw [b8] at h5
      cases h5
      rw [b4, b6, b7, b9]
      rfl
    · intro hb e
      rw [Option.some.injEq] at e
      have hall : ∀ x ∈ (addrStatement [] [] :: addrStatement d t.destinationAddressExclude ::
          [proto, portStatement t.sourcePort "src", portStatement t.destinationPort "dst", icmp,
           if (ps.map Proto.text).contains "tcp" = true then tcpOptions t.option else []]), x = [] := by
        intro x hx
        by_cases h : x = []
        · exact h
        · exact absurd e (join_ne hx h)
      have hproto : t.protocol = [] := by
        cases hl : t.protocol with
        | nil => rfl
        | cons s l =>
          exfalso
          have hp0 : proto = [] := hall proto (by simp)
          rw [hps, hl] at h4
          unfold protoStatement at h4
          obtain ⟨q, h6, h7⟩ := bind_ok h4
          cases h7
          simp only [List.map_cons] at h6
          rw [listM] at h6
          obtain ⟨x, h8, h6⟩ := bind_ok h6
          obtain ⟨xs, _, h6⟩ := bind_ok h6
          cases h6
          exact join_ne (.head _) (by rw [(protoPrim_ok h8).2]; simp) hp0
      have hports : t.sourcePort = [] ∧ t.destinationPort = [] := by
        constructor
        · by_cases h : t.sourcePort = []
          · exact h
          · exact absurd hproto (f.ports (.inl h))
        · by_cases h : t.destinationPort = []
          · exact h
          · exact absurd hproto (f.ports (.inr h))
      have hty : t.icmpType = [] := by
        by_cases h : t.icmpType = []
        · exact h
        · exact absurd (f.icmp h) (by rw [hproto]; simp)
      have hop : t.option = [] := by
        by_cases h : t.option = []
        · exact h
        · exact absurd (f.options h).1 (by rw [hproto]; simp)
      have ha0 : addrStatement d t.destinationAddressExclude = [] := hall _ (by simp)
      have hdd : (∀ n ∈ d, n ∈ t.destinationAddress) ∧ (d = [] → t.destinationAddress = []) := by
        unfold checkAf at he
        by_cases h0 : t.destinationAddress = []
        · rw [h0] at he ⊢
          cases he
          simp
        · rw [if_neg (by simpa using h0)] at he
          by_cases hm : af = "mixed"
          · rw [if_pos hm] at he; cases he; simp
          · rw [if_neg hm] at he
            dsimp only at he
            by_cases hx : (t.destinationAddress.filter fun n => n.ver == afVer af).isEmpty = true
            · rw [if_pos hx] at he; cases he
            · rw [if_neg hx] at he
              cases he
              exact ⟨fun n hn => (List.mem_filter.1 hn).1, fun h => absurd (by rw [h]; rfl) hx⟩
      have hx : d = [] ∧ t.destinationAddressExclude = [] := by
        by_cases hh : d = [] ∧ t.destinationAddressExclude = []
        · exact hh
        · refine absurd ha0 (addr_ne ?_ ?_ ?_)
          · intro n hn
            refine f.dst6 n ?_
            rw [List.mem_append] at hn ⊢
            exact hn.imp (hdd.1 n) id
          · exact Decidable.not_and_iff_not_or_not.1 hh
          · rcases f.exclude with h | ⟨hz, _⟩
            · exact .inl h
            · refine .inr ?_
              cases d with
              | nil => rfl
              | cons n _ =>
                have := hdd.1 n (.head _)
                rw [hz] at this
                cases this
      exact hb ⟨f.src, f.srcEx, hdd.2 hx.1, hx.2, hproto, hports.1, hports.2, hty, hop⟩

theorem join_blanks {op x : List Tok} {l : List (List Tok)} (h : ∀ y ∈ l, y = []) : join op (x :: l) = join op [x] := by
  have : (l.filter fun x => !x.isEmpty) = [] := by
    rw [List.filter_eq_nil_iff]
    intro y hy
    rw [h y hy]
    decide
  unfold join
  rw [List.filter_cons, List.filter_cons, this]
  rfl

theorem wanted_disjoint {invert : Bool} {a : String} (h : a ∈ wanted invert) : a ∉ wanted (!invert) := by
  unfold wanted at *
  cases invert <;> simp at h ⊢
  · subst h; decide
  · rcases h with rfl | rfl <;> decide

theorem decides_one {invert : Bool} {af : String} {ts pre : List PTerm} {y : PTerm} {post : List PTerm}
    (o : OneTerm invert af ts pre y post) (p : Packet) :
    Decides (wanted invert) ts p ↔ Matches y.term p ∧ ∀ d ∈ pre, ¬ Matches d.term p := by
  have hc := o.counting
  constructor
  · rintro ⟨pre', r, post', a, rfl, hr, hm, ha, hw, hn⟩
    rw [List.filter_append, List.filter_cons_of_pos (by simpa using hr)] at hc
    have bad : ∀ d, (∃ a, d.term.action = [a] ∧ a ∈ wanted (!invert)) → r ≠ d := by
      rintro d ⟨b, hb, hb'⟩ rfl
      rw [ha] at hb
      cases hb
      exact wanted_disjoint hw hb'
    have hmem : r ∈ pre ++ y :: post := by rw [← hc]; simp
    rw [List.mem_append, List.mem_cons] at hmem
    have hry : r = y := by
      rcases hmem with h | h | h
      · exact absurd rfl (bad r (o.before r h).1)
      · exact h
      · exact absurd rfl (bad r (o.after r h).1)
    refine ⟨hry ▸ hm, ?_⟩
    intro d hd
    have hs := o.short
    have hpre : pre = [d] := by
      rcases pre with _ | ⟨e, _ | _⟩
      · cases hd
      · rw [List.mem_singleton.1 hd]
      · simp at hs
    subst hpre
    cases hf : pre'.filter fun r => decide (Counts r) with
    | nil =>
      rw [hf] at hc
      simp only [List.nil_append, List.cons_append, List.cons.injEq] at hc
      exact absurd hc.1 (bad d (o.before d (.head _)).1)
    | cons e l =>
      rw [hf] at hc
      simp only [List.nil_append, List.cons_append, List.cons.injEq] at hc
      have he : e ∈ pre'.filter fun r => decide (Counts r) := by rw [hf]; exact .head _
      rw [List.mem_filter, decide_eq_true_eq] at he
      rw [← hc.1]
      exact fun h => hn e he.1 ⟨he.2, h⟩
  · rintro ⟨hm, hn⟩
    obtain ⟨l1, l2, h1, h2, h3⟩ := List.filter_eq_append_iff.1 hc
    obtain ⟨l3, l4, h4, h5, h6, _⟩ := List.filter_eq_cons_iff.1 h3
    obtain ⟨a, ha, hw⟩ := o.good
    refine ⟨l1 ++ l3, y, l4, a, by rw [h1, h4]; simp, by simpa using h6, hm, ha, hw, ?_⟩
    rintro s hs ⟨k1, k2⟩
    rcases List.mem_append.1 hs with h | h
    · exact hn s (by rw [← h2]; exact List.mem_filter.2 ⟨h, by simpa using k1⟩) k2
    · exact h5 s h (by simpa using k1)

/-- The terms of the filter on each side. -/
theorem sides {invert : Bool} {af : String} {ts pre : List PTerm} {y : PTerm} {post : List PTerm}
    (o : OneTerm invert af ts pre y post) {q : List Term × List Term} (h : splitTerms ts = .ok q) :
    ((if invert then q.2 else q.1).filter (Cisco.onPlatform "pcap") = [y.term]) ∧
    ((if invert then q.1 else q.2).filter (Cisco.onPlatform "pcap") = (pre ++ post).map PTerm.term) := by
  have hq := splitTerms_spec h
  have e1 := counts_filter (ts := ts) (acts := ["accept"]) (by decide)
  have e2 := counts_filter (ts := ts) (acts := ["deny", "reject"]) (by decide)
  simp only [List.any_cons, List.any_nil, Bool.or_false] at e1 e2
  rw [← hq.1, o.counting] at e1
  rw [← hq.2, o.counting] at e2
  have hbad : ∀ d ∈ pre ++ post, ∃ a, d.term.action = [a] ∧ a ∈ wanted (!invert) := by
    intro d hd
    rcases List.mem_append.1 hd with h | h
    · exact (o.before d h).1
    · exact (o.after d h).1
  obtain ⟨a, ha, hw⟩ := o.good
  have drop : ∀ (f : PTerm → Bool), (∀ d ∈ pre ++ post, f d = false) → f y = true →
      (pre ++ y :: post).filter f = [y] := by
    intro f h1 h2
    rw [List.filter_append, List.filter_cons_of_pos h2, List.filter_eq_nil_iff.2, List.filter_eq_nil_iff.2]
    · rfl
    · intro d hd; simp [h1 d (List.mem_append_right _ hd)]
    · intro d hd; simp [h1 d (List.mem_append_left _ hd)]
  have keep : ∀ (f : PTerm → Bool), (∀ d ∈ pre ++ post, f d = true) → f y = false →
      (pre ++ y :: post).filter f = pre ++ post := by
    intro f h1 h2
    rw [List.filter_append, List.filter_cons_of_neg (by simp [h2]), List.filter_eq_self.2, List.filter_eq_self.2]
    · intro d hd; exact h1 d (List.mem_append_right _ hd)
    · intro d hd; exact h1 d (List.mem_append_left _ hd)
  cases invert with
  | false =>
    simp only [Bool.false_eq_true, if_false]
    unfold wanted at hw hbad
    simp only [Bool.false_eq_true, if_false, List.mem_singleton] at hw
    subst hw
    rw [e1, e2]
    constructor
    · rw [drop]
      · rfl
      · intro d hd
        obtain ⟨b, hb, hb'⟩ := hbad d hd
        simp only [Bool.not_false, if_true, List.mem_cons, List.not_mem_nil, or_false] at hb'
        rcases hb' with rfl | rfl <;> rw [hb] <;> decide
      · rw [ha]; decide
    · rw [keep]
      · intro d hd
        obtain ⟨b, hb, hb'⟩ := hbad d hd
        simp only [Bool.not_false, if_true, List.mem_cons, List.not_mem_nil, or_false] at hb'
        rcases hb' with rfl | rfl <;> rw [hb] <;> decide
      · rw [ha]; decide
  | true =>
    simp only [if_true]
    unfold wanted at hw hbad
    simp only [if_true, List.mem_cons, List.not_mem_nil, or_false] at hw
    rw [e1, e2]
    constructor
    · rw [drop]
      · rfl
      · intro d hd
        obtain ⟨b, hb, hb'⟩ := hbad d hd
        simp only [Bool.not_true, Bool.false_eq_true, if_false, List.mem_singleton] at hb'
        subst hb'
        rw [hb]; decide
      · rw [ha]; rcases hw with rfl | rfl <;> decide
    · rw [keep]
      · intro d hd
        obtain ⟨b, hb, hb'⟩ := hbad d hd
        simp only [Bool.not_true, Bool.false_eq_true, if_false, List.mem_singleton] at hb'
        subst hb'
        rw [hb]; decide
      · rw [ha]; rcases hw with rfl | rfl <;> decide

theorem filterType_is {options : List String} {af a : String} (h : FamilyIs options af) (e : filterType options = .ok a) :
    a = af ∧ af ∈ ["inet", "inet6", "mixed"] := by
  unfold filterType at e
  have hm : ∀ x, x ∈ ["inet", "inet6", "mixed"].filter options.contains ↔ x ∈ ["inet", "inet6", "mixed"] ∧ x ∈ options := by
    intro x; rw [List.mem_filter, List.contains_iff_mem]
  split at e
  next h0 =>
    cases e
    rcases h with h | h
    · have := (hm af).2 h
      rw [h0] at this
      cases this
    · exact ⟨h.1.symm, by rw [h.1]; decide⟩
  next b h0 =>
    cases e
    have hb := (hm a).1 (by rw [h0]; exact .head _)
    rcases h with h | h
    · have := (hm af).2 h
      rw [h0] at this
      exact ⟨(List.mem_singleton.1 this).symm, h.1⟩
    · exfalso
      have := hb.1
      simp only [List.mem_cons, List.not_mem_nil, or_false] at this
      rcases this with rfl | rfl | rfl
      · exact h.2.1 hb.2
      · exact h.2.2.1 hb.2
      · exact h.2.2.2 hb.2
  · cases e

theorem clauses_nil {af dir : String} {l : List (List Tok)} (h : clauses af dir [] = .ok l) : l = [] := by
  cases h; rfl

theorem clauses_blank {af : String} (haf : af ∈ ["inet", "inet6", "mixed"]) {ts : List Term}
    (h : ∀ t ∈ ts, PFits af t ∧ Blank t) {l : List (List Tok)} (e : clauses af "" ts = .ok l) : ∀ x ∈ l, x = [] := by
  induction ts generalizing l with
  | nil => rw [clauses_nil e]; simp
  | cons t ts ih =>
    obtain ⟨r, l', h1, h2, rfl⟩ := clauses_cons e
    have ht := h t (.head _)
    rw [(render_blank haf ht.1 h1).1 ht.2]
    intro x hx
    rcases List.mem_append.1 hx with hx | hx
    · simpa using hx
    · exact ih (fun t ht => h t (List.mem_cons_of_mem _ ht)) h2 x hx

/-- The expression of the two lists of clauses. -/
theorem select_one {invert : Bool} {af : String} (haf : af ∈ ["inet", "inet6", "mixed"]) {ts pre : List PTerm} {y : PTerm}
    {post : List PTerm} (o : OneTerm invert af ts pre y post) (fits : ∀ r ∈ pre ++ y :: post, PFits af r.term)
    {g b : List (List Tok)} (hg : clauses af "" [y.term] = .ok g) (hb : clauses af "" ((pre ++ post).map PTerm.term) = .ok b)
    {p : Packet} (hs : Sound p) (hf : OfFamily af p) (loc : Ver → Nat → Prop) :
    Cond loc p (join [.and, .not] [join [.and] g, join [.and] b]) (Matches y.term p ∧ ∀ d ∈ pre, ¬ Matches d.term p) ∧
    (¬ Blank y.term → join [.and, .not] [join [.and] g, join [.and] b] ≠ []) := by
  have fy := fits y (by simp)
  obtain ⟨ry, l', hy, hl, rfl⟩ := clauses_cons hg
  rw [clauses_nil hl]
  have hyb := render_blank haf fy hy
  rcases term_cond haf fy hy hs hf loc with ⟨ty, rfl, cy⟩ | ⟨rfl, _⟩
  case inr => exact absurd rfl (hyb.2.2 o.addr)
  have tow : ∀ P ts, (P ∧ (ts ≠ ([] : List Tok) → Towards "" loc p)) ↔ P := by
    intro P ts
    refine ⟨And.left, fun h => ⟨h, fun _ => ?_⟩⟩
    simp [Towards]
  rw [tow] at cy
  have hpost : ∀ t ∈ post.map PTerm.term, PFits af t ∧ Blank t := by
    intro t ht
    obtain ⟨d, hd, rfl⟩ := List.mem_map.1 ht
    exact ⟨fits d (by simp [hd]), (o.after d hd).2⟩
  refine ⟨?_, fun hn => join_ne (.head _) (join_ne (x := ty) (.head _) fun e => hyb.2.1 hn (by rw [e]))⟩
  show Cond loc p (join [.and, .not] [join [.and] [ty], join [.and] b]) _
  have lone : Cond loc p (join [.and, .not] [join [.and] [ty], []]) (Matches y.term p) := by
    rw [join_skip2]
    rcases cy with ⟨rfl, h⟩ | h
    · exact .inl ⟨rfl, h⟩
    · exact .inr (join_single (join_single h))
  have hshort := o.short
  rcases pre with _ | ⟨d, _ | _⟩
  · rw [List.nil_append] at hb
    rw [join_blank (clauses_blank haf hpost hb)]
    exact lone.congr (by simp)
  · have fd := fits d (by simp)
    rw [List.cons_append, List.nil_append, List.map_cons] at hb
    obtain ⟨rd, l', hd, hl, rfl⟩ := clauses_cons hb
    have bl := clauses_blank haf hpost hl
    rcases term_cond haf fd hd hs hf loc with ⟨td, rfl, cd⟩ | ⟨rfl, hno⟩
    · rw [tow] at cd
      rw [show (some td).toList ++ l' = td :: l' from rfl, join_blanks bl]
      have hdn := (render_blank haf fd hd).2.1 (o.before d (.head _)).2
      have hyn := hyb.2.1 (by
        rcases o.cond with h | h
        · cases h
        · exact h)
      have Fd : Factor loc p td (Matches d.term p) := by
        rcases cd with ⟨rfl, _⟩ | h
        · exact absurd rfl hdn
        · exact h
      have Fy : Factor loc p ty (Matches y.term p) := by
        rcases cy with ⟨rfl, _⟩ | h
        · exact absurd rfl hyn
        · exact h
      exact .inr ((join_andnot (join_single Fy) (join_single Fd)).congr (by simp))
    · rw [show (none : Option (List Tok)).toList ++ l' = l' from rfl, join_blank bl]
      exact lone.congr (by simp [hno])
  · simp at hshort

/-- A filter without direction, with one wanted term, at most one term with a condition before it and terms without
condition after it; the packet is of its family. -/
structure Simple (invert : Bool) (f : Filter) (p : Packet) (y : PTerm) : Prop where
  dir : "in" ∉ f.options ∧ "out" ∉ f.options
  shape : ∃ af pre post, FamilyIs f.options af ∧ OneTerm invert af f.terms pre y post ∧
    (∀ r ∈ f.terms, Counts r → PFits af r.term) ∧ OfFamily af p

theorem filter_cond {invert : Bool} {f : Filter} {p : Packet} {y : PTerm} (s : Simple invert f p y) (hs : Sound p)
    {r : String × Out} (h3 : translateFilter "" f = .ok r) {x : List Tok} (h4 : printFilter invert r.2 = .ok x)
    (loc : Ver → Nat → Prop) :
    r.1 = "" ∧ Cond loc p x (Decides (wanted invert) f.terms p) ∧ (¬ Blank y.term → x ≠ []) := by
  obtain ⟨af, pre, post, hfam, o, fits, hf⟩ := s.shape
  rw [decides_one o]
  unfold translateFilter at h3
  split at h3
  · cases h3
  obtain ⟨af', h5, h3⟩ := bind_ok h3
  obtain ⟨q, h6, h3⟩ := bind_ok h3
  cases h3
  obtain ⟨rfl, haf⟩ := filterType_is hfam h5
  have hd : direction f.options "" = "" := by
    unfold direction
    rw [if_neg (by simpa using s.dir.1), if_neg (by simpa using s.dir.2)]
  refine ⟨hd, ?_⟩
  unfold printFilter at h4
  obtain ⟨a, h7, h4⟩ := bind_ok h4
  obtain ⟨b, h8, h4⟩ := bind_ok h4
  cases h4
  dsimp only at h7 h8
  rw [hd] at h7 h8
  have k1 := clauses_active h7
  have k2 := clauses_active h8
  have hs' := sides o h6
  have ff : ∀ r ∈ pre ++ y :: post, PFits af' r.term := by
    intro r hr
    rw [← o.counting, List.mem_filter, decide_eq_true_eq] at hr
    exact fits r hr.1 hr.2
  cases invert with
  | false =>
    simp only [Bool.false_eq_true, if_false] at hs' ⊢
    rw [hs'.1] at k1
    rw [hs'.2] at k2
    exact select_one haf o ff k1 k2 hs hf loc
  | true =>
    simp only [if_true] at hs' ⊢
    rw [hs'.2] at k1
    rw [hs'.1] at k2
    exact select_one haf o ff k2 k1 hs hf loc

/-- **C50** (partial): the expression captures exactly the packets whose first matching term accepts (inverted: denies or
rejects), for one filter without direction, with one such term, at most one term with a condition before it and terms
without condition after it. The refutations show what happens with other filters. -/
theorem C50_partial {invert : Bool} {f : Filter} {ts : List Tok} (h : Pcap.render invert [f] = .ok ts) {p : Packet}
    {y : PTerm} (s : Simple invert f p y) (hs : Sound p) (loc : Ver → Nat → Prop) :
    Selects loc ts p ↔ Decides (wanted invert) f.terms p := by
  unfold Pcap.render at h
  obtain ⟨os, h1, h⟩ := bind_ok h
  obtain ⟨l, h2, h⟩ := bind_ok h
  cases h
  rw [translate] at h1
  obtain ⟨r, h3, h1⟩ := bind_ok h1
  cases h1
  rw [listM] at h2
  obtain ⟨x, h4, h2⟩ := bind_ok h2
  cases h2
  exact selects_cond (filter_cond s hs h3 h4 loc).2.1

theorem ex_cons {α : Type} {P : α → Prop} {a : α} {l : List α} : (∃ x ∈ a :: l, P x) ↔ P a ∨ ∃ x ∈ l, P x := by
  simp

theorem translate_each {invert : Bool} {p : Packet} (hs : Sound p) (loc : Ver → Nat → Prop) {fs : List Filter}
    (hf : ∀ f ∈ fs, ∃ y, Simple invert f p y ∧ ¬ Blank y.term) {os : List Out} (h1 : translate "" fs = .ok os)
    {l : List (List Tok)} (h2 : listM (printFilter invert) os = .ok l) :
    ∃ ys : List (List Tok × Prop), ys.map Prod.fst = l ∧ ys.length = fs.length ∧ (∀ y ∈ ys, Factor loc p y.1 y.2) ∧
      ((∃ y ∈ ys, y.2) ↔ ∃ f ∈ fs, Decides (wanted invert) f.terms p) := by
  induction fs generalizing os l with
  | nil => cases h1; cases h2; exact ⟨[], rfl, rfl, by simp, by simp⟩
  | cons f fs ih =>
    rw [translate] at h1
    obtain ⟨r, h3, h1⟩ := bind_ok h1
    obtain ⟨os', h5, h1⟩ := bind_ok h1
    cases h1
    rw [listM] at h2
    obtain ⟨x, h4, h2⟩ := bind_ok h2
    obtain ⟨l', h6, h2⟩ := bind_ok h2
    cases h2
    obtain ⟨y, hy, hb⟩ := hf f (.head _)
    obtain ⟨k1, k2, k3⟩ := filter_cond hy hs h3 h4 loc
    rw [k1] at h5
    obtain ⟨ys, e1, e2, e3, e4⟩ := ih (fun f h => hf f (List.mem_cons_of_mem _ h)) h5 h6
    refine ⟨(x, Decides (wanted invert) f.terms p) :: ys, by rw [List.map_cons, e1], by simp [e2], ?_, ?_⟩
    · intro z hz
      rcases List.mem_cons.1 hz with rfl | hz
      · rcases k2 with ⟨h, _⟩ | h
        · exact absurd h (k3 hb)
        · exact h
      · exact e3 z hz
    · rw [ex_cons, ex_cons, e4]

/-- **C50** (partial): for several such filters, each with conditions, the expression captures the packets that one of
them accepts (inverted: denies or rejects). -/
theorem C50_filters_partial {invert : Bool} {fs : List Filter} (hne : fs ≠ []) {ts : List Tok}
    (h : Pcap.render invert fs = .ok ts) {p : Packet} (hf : ∀ f ∈ fs, ∃ y, Simple invert f p y ∧ ¬ Blank y.term)
    (hs : Sound p) (loc : Ver → Nat → Prop) :
    Selects loc ts p ↔ ∃ f ∈ fs, Decides (wanted invert) f.terms p := by
  unfold Pcap.render at h
  obtain ⟨os, h1, h⟩ := bind_ok h
  obtain ⟨l, h2, h⟩ := bind_ok h
  cases h
  obtain ⟨ys, rfl, e2, e3, e4⟩ := translate_each hs loc hf h1 h2
  rw [← e4]
  cases ys with
  | nil => exact absurd (List.length_eq_zero_iff.1 e2.symm) hne
  | cons y ys =>
    rw [List.map_cons, sepBy_cons]
    have c := chain_ors (fun z hz => e3 z (List.mem_cons_of_mem _ hz)) (factor_chain (e3 y (.head _)))
    have hnil : y.1 ≠ [] := factor_ne (e3 y (.head _))
    obtain ⟨x, c1, c2⟩ := c []
    unfold Selects
    have hp : parse (y.1 ++ (ys.map Prod.fst).flatMap fun y => [Tok.or] ++ y) = some x := by
      unfold parse
      rw [c1]
    rw [ex_cons, ← c2, hp]
    constructor
    · rintro (h | ⟨e, h, k⟩)
      · exact absurd (List.append_eq_nil_iff.1 h).1 hnil
      · cases h; exact k
    · exact fun h => .inr ⟨x, rfl, h⟩

end Verif.Props
