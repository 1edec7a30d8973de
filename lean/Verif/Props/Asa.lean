import Verif.Spec.Asa
import Verif.Lemmas.Basic
import Verif.Lemmas.Flat
import Verif.Lemmas.FirstMatch
import Verif.Props.JuniperTerm

/-!
C115-C117: what the output of capirca/lib/ciscoasa.py makes a device do.
-/

namespace Verif.Props
open Verif Verif.Spec Verif.Asa Policy Aclgenerator Nacaddr

/-- The terms that are rendered faithfully. For what happens without the conditions beyond the tool's own checks, see the
refutations. -/
structure AsaFits (t : Term) : Prop where
  keywords : initCheck Verif.Asa.tables [(["ciscoasa"], [kterm t])] = .ok ()
  sane : sanityCheck t = .ok ()
  action : ∃ a, t.action = [a]
  verbatim : t.verbatim = []
  option : t.option = []
  untagged : Untagged t
  family : t.restrictAddressFamily = none ∨ t.restrictAddressFamily = some "inet"
  src : ∀ n ∈ t.sourceAddress ++ t.sourceAddressExclude, WF n
  dst : ∀ n ∈ t.destinationAddress ++ t.destinationAddressExclude, WF n
  srcExclude : t.sourceAddress = [] → t.sourceAddressExclude = []
  dstExclude : t.destinationAddress = [] → t.destinationAddressExclude = []
  protos : ∀ s ∈ t.protocol, ∃ n, (s, n) ∈ Spec.Asa.protoNames ∧ (s, n) ∈ iana
  ports : t.sourcePort ++ t.destinationPort ≠ [] → t.protocol ≠ []

theorem asa_tables_ok : ∀ e ∈ Verif.Asa.tables.subTokens, e.1 ∈ Verif.Asa.tables.tokens := by decide

theorem asa_rare : ∀ s ∈ rareWords, s ∉ Verif.Asa.tables.tokens := by decide

theorem asa_matches {t : Term} (f : AsaFits t) (ha : Active "ciscoasa" (kterm t)) {p : Packet}
    (hv : p.ver = .v4) : Matches t p ↔
      (AddrMatch t.sourceAddress t.sourceAddressExclude p.ver p.src ∧
        AddrMatch t.destinationAddress t.destinationAddressExclude p.ver p.dst) ∧
      OneOf t.protocol p.proto ∧ (PortMatch t.sourcePort p.sport ∧ PortMatch t.destinationPort p.dport) ∧
      OneOf t.icmpType p.icmpType := by
  have un := fun (s : String) {v : Val} => unset (g := Verif.Asa.tables) asa_tables_ok rfl ha f.keywords s (v := v)
  have b := basic_of (g := Verif.Asa.tables) asa_tables_ok rfl asa_rare ha f.keywords
  have h5 : t.protocolExcept = [] := Cisco.wordsVal_falsy (un "protocol_except" (by simp [attrsOf]) (by decide))
  have h9 : t.icmpCode = [] := Cisco.listVal_falsy (un "icmp_code" (by simp [attrsOf]) (by decide))
  rw [matches_basic b f.untagged (by rw [hv]; exact f.family)]
  unfold MatchProto
  rw [h5, h9, f.option]
  constructor
  · rintro ⟨a, ⟨c, _⟩, d, ⟨e, _⟩, _⟩
    exact ⟨a, c, d, e⟩
  · rintro ⟨a, c, d, e⟩
    exact ⟨a, ⟨c, by simp⟩, d, ⟨e, .inl rfl⟩, by simp⟩

/-! ### addresses -/

theorem testBit_netmask {m i : Nat} (hm : m < 2 ^ 32) (hi : i < 32) : (2 ^ 32 - 1 - m).testBit i = !m.testBit i := by
  have := Nat.testBit_two_pow_sub_succ hm i
  rw [show 2 ^ 32 - 1 - m = 2 ^ 32 - (m + 1) by omega, this]
  simp [hi]

theorem hostmask_lt {n : Net} (w : WF n) (h4 : n.ver = .v4) : n.hostmask < 2 ^ 32 := by
  have h1 : (2 : Nat) ^ (32 - n.plen) ≤ 2 ^ 32 := Nat.pow_le_pow_right (by decide) (by omega)
  have h2 := Nat.two_pow_pos (32 - n.plen)
  rw [hostmask_eq n w.plen_le, h4]
  show 2 ^ (32 - n.plen) - 1 < 2 ^ 32
  omega

theorem asa_addr {n : Net} (w : WF n) (h4 : n.ver = .v4) {x : Nat} (hx : x < 2 ^ 32) :
    Spec.Asa.InAddr x (addrOf (some n)) ↔ Mem n .v4 x := by
  unfold addrOf
  dsimp only
  by_cases h : 1 < n.broadcast - n.addr + 1
  · rw [if_pos h, ← Cisco.wild_net w h4 .v4 hx]
    show (∀ i < 32, _ → _) ↔ (Ver.v4 = .v4 ∧ ∀ i < 32, _ → _)
    have key : ∀ i < 32, (2 ^ 32 - 1 - n.hostmask).testBit i = true ↔ n.hostmask.testBit i = false := by
      intro i hi
      rw [testBit_netmask (hostmask_lt w h4) hi]
      simp
    exact ⟨fun h => ⟨rfl, fun i hi hb => h i hi ((key i hi).2 hb)⟩, fun h i hi hb => h.2 i hi ((key i hi).1 hb)⟩
  · rw [if_neg h, ← Cisco.host_net w h .v4 x]
    show x = n.addr ↔ (n.ver = .v4 ∧ x = n.addr)
    simp [h4]

theorem asa_addresses {inc exc : List Net} (hw : ∀ n ∈ inc ++ exc, WF n) (hx : inc = [] → exc = []) {l : List (Option Net)}
    (h : addresses inc exc = .ok l) {x : Nat} (hlt : x < 2 ^ 32) :
    (∃ o ∈ l, Spec.Asa.InAddr x (addrOf o)) ↔ AddrMatch inc exc .v4 x := by
  unfold addresses at h
  by_cases h0 : inc = []
  · have e0 := hx h0
    subst h0 e0
    cases h
    refine iff_of_true ⟨none, by simp, trivial⟩ ⟨.inl rfl, by simp [Den]⟩
  · rw [if_neg (by simpa using h0)] at h
    obtain ⟨r, h1, h2, h3, h4⟩ := Cisco.leftover_spec (af := .v4) (fun n hn => hw n (List.mem_append_left _ hn))
      (fun n hn => hw n (List.mem_append_right _ hn)) h0
    obtain ⟨r', h5, h⟩ := bind_ok h
    rw [h1] at h5
    cases h5
    cases h
    rw [← h4]
    constructor
    · rintro ⟨o, ho, hi⟩
      obtain ⟨n, hn, rfl⟩ := List.mem_map.1 ho
      exact ⟨n, hn, (asa_addr (h2 n hn) (h3 n hn) hlt).1 hi⟩
    · rintro ⟨n, hn, hm⟩
      exact ⟨some n, List.mem_map_of_mem hn, (asa_addr (h2 n hn) (h3 n hn) hlt).2 hm⟩

/-! ### ports and types -/

theorem asa_portName {q : String} (hq : q ≠ "icmp") (n : Nat) :
    Spec.Asa.numberOf (Spec.Asa.portNames q) (Verif.Asa.portName n q) = some n := by
  have k1 : ∀ e ∈ tcpPorts, Spec.Asa.tcpNames.lookup e.2 = some e.1 := by decide
  have k2 : ∀ e ∈ udpPorts, Spec.Asa.udpNames.lookup e.2 = some e.1 := by decide
  unfold Verif.Asa.portName Spec.Asa.portNames
  dsimp only
  by_cases h1 : q = "tcp"
  · subst h1
    simp only [if_true]
    split
    next s hs => exact Cisco.lookup_inv k1 hs
    · rfl
  · simp only [if_neg h1]
    by_cases h2 : q = "udp"
    · subst h2
      simp only [if_true]
      split
      next s hs => exact Cisco.lookup_inv k2 hs
      · rfl
    · simp only [if_neg h2, if_neg hq]
      rfl

theorem asa_icmpName (n : Nat) : Spec.Asa.numberOf Spec.Asa.icmpTypeNames (Verif.Asa.portName n "icmp") = some n := by
  have k : ∀ e ∈ Cisco.eosIcmp, Spec.Asa.icmpTypeNames.lookup e.2 = some e.1 := by decide
  have e : Verif.Asa.portName n "icmp" = match Cisco.eosIcmp.lookup n with | some s => Cisco.Tok.w s | none => .num n := rfl
  rw [e]
  split
  next s hs => exact Cisco.lookup_inv k hs
  · rfl

theorem asa_inPorts {q : String} (hq : q ≠ "icmp") {o : Option PortRange} {x : Nat} :
    Spec.Asa.InPorts q x (Verif.Asa.portsOf q o) ↔ ∀ a b, o = some (a, b) → a ≤ x ∧ x ≤ b := by
  cases o with
  | none => exact iff_of_true trivial (by rintro a b ⟨⟩)
  | some r =>
    obtain ⟨a, b⟩ := r
    unfold Verif.Asa.portsOf
    dsimp only
    by_cases h : a = b
    · subst h
      rw [if_neg (by simp)]
      show Spec.Asa.numberOf _ _ = some x ↔ _
      rw [asa_portName hq]
      simp only [Option.some.injEq, Prod.mk.injEq]
      constructor
      · rintro rfl a b ⟨rfl, rfl⟩
        exact ⟨Nat.le_refl _, Nat.le_refl _⟩
      · intro h
        obtain ⟨h1, h2⟩ := h a a ⟨rfl, rfl⟩
        omega
    · rw [if_pos h]
      show (∃ i j, Spec.Asa.numberOf _ _ = some i ∧ Spec.Asa.numberOf _ _ = some j ∧ i ≤ x ∧ x ≤ j) ↔ _
      rw [asa_portName hq, asa_portName hq]
      simp only [Option.some.injEq, Prod.mk.injEq]
      constructor
      · rintro ⟨_, _, rfl, rfl, h⟩ a b ⟨rfl, rfl⟩
        exact h
      · intro h
        exact ⟨a, b, rfl, rfl, h a b ⟨rfl, rfl⟩⟩

theorem asa_ports (l : List PortRange) (x : Nat) :
    (∃ o ∈ Verif.Asa.ports l, ∀ a b, o = some (a, b) → a ≤ x ∧ x ≤ b) ↔ PortMatch l x := by
  unfold Verif.Asa.ports PortMatch
  by_cases h : l = []
  · subst h
    exact iff_of_true ⟨none, by simp, by rintro a b ⟨⟩⟩ (.inl rfl)
  · rw [if_neg (by simpa using h)]
    constructor
    · rintro ⟨o, ho, hi⟩
      obtain ⟨r, hr, rfl⟩ := List.mem_map.1 ho
      exact .inr ⟨r, hr, hi r.1 r.2 rfl⟩
    · rintro (h' | ⟨r, hr, h1, h2⟩)
      · exact absurd h' h
      · refine ⟨some r, List.mem_map_of_mem hr, ?_⟩
        rintro a b e
        cases e
        exact ⟨h1, h2⟩

theorem asa_ports_none {l : List PortRange} {o : Option PortRange} (h : o ∈ Verif.Asa.ports l) : l = [] → o = none := by
  rintro rfl
  simpa [Verif.Asa.ports] using h

/-! ### protocols -/

theorem asa_proto {s : String} (h : ∃ n, (s, n) ∈ Spec.Asa.protoNames ∧ (s, n) ∈ iana) {p : Packet} :
    (s = "ip" ∨ ∃ n, (s, n) ∈ Spec.Asa.protoNames ∧ (p.proto, n) ∈ iana) ↔ p.proto = s := by
  obtain ⟨n, h1, h2⟩ := h
  have k1 : ∀ e ∈ iana, e.1 ≠ "ip" := by decide
  have k2 : ∀ e ∈ Spec.Asa.protoNames, ∀ f ∈ Spec.Asa.protoNames, e.1 = f.1 → e.2 = f.2 := by decide
  constructor
  · rintro (h | ⟨m, h3, h4⟩)
    · exact absurd h (k1 _ h2)
    · have : n = m := k2 _ h1 _ h3 rfl
      subst this
      exact Cisco.iana_inj _ h4 _ h2 rfl
  · rintro rfl
    exact .inr ⟨n, h1, h2⟩

theorem mem_asaExpand {act : Option String} {src dst : List (Option Net)} {sps dps : List (Option PortRange)}
    {protos : List String} {types : List (Option Nat)} {opts : List String} {e : Entry} :
    e ∈ Verif.Asa.expand act src dst sps dps protos types opts ↔
      ∃ s ∈ src, ∃ d ∈ dst, ∃ sp ∈ sps, ∃ dp ∈ dps, ∃ q ∈ protos, ∃ ty ∈ types,
        e = { action := act, proto := q, src := addrOf s, sport := Verif.Asa.portsOf q sp, dst := addrOf d,
              dport := Verif.Asa.portsOf q dp, icmp := ty.map fun n => Verif.Asa.portName n "icmp", options := opts } := by
  unfold Verif.Asa.expand
  simp only [List.mem_flatMap, List.mem_map, eq_comm]

/-- What the entries of a term have in common. -/
theorem asa_entries_ok {t : Term} {es : List Entry} (h : Verif.Asa.entries t = .ok es) {a : String} (ha : t.action = [a]) :
    ∃ src dst types, addresses t.sourceAddress t.sourceAddressExclude = .ok src ∧
      addresses t.destinationAddress t.destinationAddressExclude = .ok dst ∧ Cisco.icmpTypesOf t .v4 = .ok types ∧
      es = Verif.Asa.expand (Verif.Asa.actionTable.lookup a) src dst (Verif.Asa.ports t.sourcePort)
        (Verif.Asa.ports t.destinationPort) (Verif.Asa.protocols t) types (Verif.Asa.options t) := by
  unfold Verif.Asa.entries at h
  obtain ⟨src, h1, h⟩ := bind_ok h
  obtain ⟨dst, h2, h⟩ := bind_ok h
  obtain ⟨types, h3, h⟩ := bind_ok h
  rw [ha] at h
  cases h
  exact ⟨src, dst, types, h1, h2, h3, rfl⟩

theorem asa_withPorts {t : Term} (f : AsaFits t) (hp : t.sourcePort ++ t.destinationPort ≠ []) {q : String}
    (hq : q ∈ Verif.Asa.protocols t) : q ∈ ["tcp", "udp", "sctp"] ∧ q ≠ "icmp" := by
  have hne := f.ports hp
  unfold Verif.Asa.protocols at hq
  rw [if_neg (by simpa using hne)] at hq
  have h1 := sane_ports f.sane f.verbatim (by
    refine Classical.byContradiction fun h => ?_
    rw [not_or, Classical.not_not, Classical.not_not] at h
    exact hp (by rw [h.1, h.2]; rfl)) hq
  obtain ⟨n, h2, _⟩ := f.protos q hq
  have key : ∀ e ∈ Spec.Asa.protoNames, e.1 ∈ protosWithPorts → e.1 ∈ ["tcp", "udp", "sctp"] ∧ e.1 ≠ "icmp" := by decide
  exact key _ h2 h1

theorem asa_entries {t : Term} (f : AsaFits t) (hl : Active "ciscoasa" (kterm t)) {es : List Entry}
    (h : Verif.Asa.entries t = .ok es) {p : Packet} (hc : Coherent p) (hv : p.ver = .v4) :
    (∃ e ∈ es, Spec.Asa.Hits e p) ↔ Matches t p := by
  obtain ⟨a, ha⟩ := f.action
  obtain ⟨src, dst, types, h1, h2, h3, rfl⟩ := asa_entries_ok h ha
  have hps : p.src < 2 ^ 32 := by have := hc.src; rwa [hv] at this
  have hpd : p.dst < 2 ^ 32 := by have := hc.dst; rwa [hv] at this
  rw [asa_matches f hl hv, hv, ← asa_addresses f.src f.srcExclude h1 hps, ← asa_addresses f.dst f.dstExclude h2 hpd,
    ← asa_ports, ← asa_ports, ← (Cisco.icmpTypes_spec h3 p).1]
  have hproto : (∃ q ∈ Verif.Asa.protocols t, q = "ip" ∨ ∃ n, (q, n) ∈ Spec.Asa.protoNames ∧ (p.proto, n) ∈ iana) ↔
      OneOf t.protocol p.proto := by
    unfold Verif.Asa.protocols
    by_cases h0 : t.protocol = []
    · rw [h0]
      exact iff_of_true ⟨"ip", by simp, .inl rfl⟩ (.inl rfl)
    · rw [if_neg (by simpa using h0)]
      constructor
      · rintro ⟨q, hq, h⟩
        rw [asa_proto (f.protos q hq)] at h
        exact .inr (h ▸ hq)
      · rintro (h | h)
        · exact absurd h h0
        · exact ⟨_, h, (asa_proto (f.protos _ h)).2 rfl⟩
  rw [← hproto]
  have hin : ∀ q ∈ Verif.Asa.protocols t, ∀ l, (l = t.sourcePort ∨ l = t.destinationPort) → ∀ o ∈ Verif.Asa.ports l, ∀ x,
      (Spec.Asa.InPorts q x (Verif.Asa.portsOf q o) ↔ ∀ a b, o = some (a, b) → a ≤ x ∧ x ≤ b) := by
    intro q hq l hl o ho x
    by_cases h0 : l = []
    · rw [asa_ports_none ho h0]
      exact iff_of_true trivial (by rintro a b ⟨⟩)
    · refine asa_inPorts (asa_withPorts f (fun e => h0 ?_) hq).2
      rw [List.append_eq_nil_iff] at e
      rcases hl with rfl | rfl
      · exact e.1
      · exact e.2
  constructor
  · rintro ⟨e, he, hh⟩
    obtain ⟨s, hs, d, hd, sp, hsp, dp, hdp, q, hq, ty, hty, rfl⟩ := mem_asaExpand.1 he
    refine ⟨⟨⟨s, hs, hh.src⟩, ⟨d, hd, hh.dst⟩⟩, ⟨q, hq, hh.proto⟩,
      ⟨⟨sp, hsp, (hin q hq _ (.inl rfl) sp hsp _).1 hh.sport⟩, ⟨dp, hdp, (hin q hq _ (.inr rfl) dp hdp _).1 hh.dport⟩⟩,
      ⟨ty, hty, ?_⟩⟩
    rintro k rfl
    obtain ⟨k', e1, e2⟩ := hh.icmp _ rfl
    rw [asa_icmpName] at e1
    cases e1
    exact e2
  · rintro ⟨⟨⟨s, hs, m1⟩, ⟨d, hd, m2⟩⟩, ⟨q, hq, m3⟩, ⟨⟨sp, hsp, m4⟩, ⟨dp, hdp, m5⟩⟩, ⟨ty, hty, m6⟩⟩
    refine ⟨_, mem_asaExpand.2 ⟨s, hs, d, hd, sp, hsp, dp, hdp, q, hq, ty, hty, rfl⟩, ⟨hv, m3, m1, m2,
      (hin q hq _ (.inl rfl) sp hsp _).2 m4, (hin q hq _ (.inr rfl) dp hdp _).2 m5, ?_, ?_⟩⟩
    · intro hne
      refine (asa_withPorts f ?_ hq).1
      intro e
      rw [List.append_eq_nil_iff] at e
      apply hne
      show Verif.Asa.portsOf q sp ++ Verif.Asa.portsOf q dp = []
      rw [asa_ports_none hsp e.1, asa_ports_none hdp e.2]
      rfl
    · intro w hw
      obtain ⟨k, rfl, rfl⟩ := Option.map_eq_some_iff.1 hw
      exact ⟨k, asa_icmpName k, m6 k rfl⟩

/-! ### lines and lists -/

theorem asa_action {t : Term} (f : AsaFits t) (hl : Active "ciscoasa" (kterm t)) {w : String} (hw : t.action = [w]) (a : String) :
    (Verif.Asa.actionTable.lookup w = some a ∧ (a = "permit" ∨ a = "deny")) ↔ (w, a) ∈ Spec.Asa.actionNames := by
  have hm : w ∈ ["accept", "deny", "reject", "next", "reject-with-tcp-rst"] :=
    word_known (g := Verif.Asa.tables) asa_tables_ok hl f.keywords (el := "action") (l := t.action)
      (ok := ["accept", "deny", "reject", "next", "reject-with-tcp-rst"]) (by simp [attrsOf]) rfl (by decide)
      (by rw [hw]; simp)
  simp only [List.mem_cons, List.not_mem_nil, or_false] at hm
  rcases hm with rfl | rfl | rfl | rfl | rfl
  all_goals
    simp only [Verif.Asa.actionTable, Spec.Asa.actionNames, List.lookup, List.mem_cons, Prod.mk.injEq, List.not_mem_nil,
      or_false]
    simp
    try (constructor <;> (intro h; simp_all))
    try (rintro rfl; decide)

theorem asa_render {name : String} {t : Term} (f : AsaFits t) (hl : Active "ciscoasa" (kterm t)) {ls : List Asa.Line}
    (h : Verif.Asa.render name t = .ok ls) : ∃ es, Verif.Asa.entries t = .ok es ∧ ls = es.map (.entry name) := by
  unfold Verif.Asa.render at h
  rw [if_neg (by rw [(Cisco.onPlatform_iff (c := ⟨"ciscoasa", false⟩)).2 hl]; decide), if_neg, f.verbatim] at h
  · obtain ⟨es, h1, h⟩ := bind_ok h
    cases h
    exact ⟨es, h1, rfl⟩
  · intro hc
    obtain ⟨n, h1, _⟩ := f.protos "icmpv6" (by simpa using hc)
    have : ∀ e ∈ Spec.Asa.protoNames, e.1 ≠ "icmpv6" := by decide
    exact this _ h1 rfl

/-- The entries of lines for the list with the name. -/
def ownEntries (name : String) (ls : List Asa.Line) : List Entry :=
  ls.filterMap fun l => match l with
    | .entry n e => if n = name then some e else none
    | _ => none

theorem asa_fold {name : String} : ∀ {ls : List Asa.Line} (acc : List Entry), (.clear name) ∉ ls →
    ls.foldl (Spec.Asa.step name) acc = acc ++ ownEntries name ls
  | [], acc, _ => by simp [ownEntries]
  | l :: ls, acc, h => by
    rw [List.foldl_cons, asa_fold _ (fun h' => h (List.mem_cons_of_mem _ h'))]
    unfold ownEntries
    rw [List.filterMap_cons]
    cases l with
    | clear n =>
      have hn : n ≠ name := by
        rintro rfl
        exact h List.mem_cons_self
      simp [Spec.Asa.step, hn]
    | entry n e =>
      by_cases hn : n = name
      · simp [Spec.Asa.step, hn]
      · simp [Spec.Asa.step, hn]
    | verbatim s => simp [Spec.Asa.step]
    | bare => simp [Spec.Asa.step]

theorem asa_listed {name : String} {pre ls : List Asa.Line} (h : (.clear name) ∉ ls) :
    Spec.Asa.listed name (pre ++ .clear name :: ls) = ownEntries name ls := by
  unfold Spec.Asa.listed
  rw [List.foldl_append, List.foldl_cons, asa_fold _ h]
  simp [Spec.Asa.step]

/-- All lines of a filter but the first are about its terms. -/
theorem asa_render_lines {name : String} {r : Cisco.RTerm} {ls : List Asa.Line} (h : Verif.Asa.oneTerm name r = .ok ls) :
    ∀ l ∈ ls, (∃ e, l = .entry name e) ∨ (∃ s, l = .verbatim s) ∨ l = .bare := by
  unfold Verif.Asa.oneTerm at h
  split at h
  · cases h; simp
  · unfold Verif.Asa.render at h
    split at h
    · cases h; simp
    · split at h
      · cases h
        intro l hl
        simp only [List.mem_cons, List.not_mem_nil, or_false, or_self] at hl
        exact .inr (.inr hl)
      · split at h
        · cases h
          intro l hl
          split at hl
          · exact .inr (.inl ⟨_, List.mem_singleton.1 hl⟩)
          · cases hl
        · obtain ⟨es, _, h⟩ := bind_ok h
          cases h
          intro l hl
          obtain ⟨e, _, rfl⟩ := List.mem_map.1 hl
          exact .inl ⟨e, rfl⟩

theorem asa_oneFilter {f : Verif.Asa.Filter} {ls : List Asa.Line} (h : Verif.Asa.oneFilter f = .ok ls) :
    ∃ bs, listM (Verif.Asa.oneTerm (Verif.Asa.nameOf f)) f.terms = .ok bs ∧
      ls = .clear (Verif.Asa.nameOf f) :: bs.flatMap id ∧
      ∀ l ∈ bs.flatMap id, (∃ e, l = .entry (Verif.Asa.nameOf f) e) ∨ (∃ s, l = .verbatim s) ∨ l = .bare := by
  unfold Verif.Asa.oneFilter at h
  obtain ⟨bs, h1, h⟩ := bind_ok h
  cases h
  refine ⟨bs, h1, rfl, fun l hl => ?_⟩
  obtain ⟨b, hb, hl⟩ := List.mem_flatMap.1 hl
  obtain ⟨r, _, h2⟩ := (listM_mem h1 b).1 hb
  exact asa_render_lines h2 l hl

theorem asa_live {r : Cisco.RTerm} : Spec.Asa.Live r ↔ r.expired = false ∧ Active "ciscoasa" (kterm r.term) := Iff.rfl

theorem asa_notLive {name : String} {r : Cisco.RTerm} (h : ¬ Spec.Asa.Live r) : Verif.Asa.oneTerm name r = .ok [] := by
  unfold Verif.Asa.oneTerm
  cases he : r.expired with
  | true => rfl
  | false =>
    rw [if_neg (by decide)]
    unfold Verif.Asa.render
    rw [if_pos]
    cases hp : Cisco.onPlatform "ciscoasa" r.term with
    | false => rfl
    | true => exact absurd (asa_live.2 ⟨he, (Cisco.onPlatform_iff (c := ⟨"ciscoasa", false⟩)).1 hp⟩) h

theorem asa_noVerbatim {name : String} {r : Cisco.RTerm} (hv : Spec.Asa.Live r → r.term.verbatim = []) {ls : List Asa.Line}
    (h : Verif.Asa.oneTerm name r = .ok ls) (s : String) : Line.verbatim s ∉ ls := by
  by_cases hl : Spec.Asa.Live r
  · have hv := hv hl
    unfold Verif.Asa.oneTerm at h
    rw [if_neg (by rw [hl.1]; decide)] at h
    unfold Verif.Asa.render at h
    rw [if_neg (by rw [(Cisco.onPlatform_iff (c := ⟨"ciscoasa", false⟩)).2 (asa_live.1 hl).2]; decide), hv] at h
    split at h
    · cases h; simp
    · obtain ⟨es, _, h⟩ := bind_ok h
      cases h
      simp
  · rw [asa_notLive hl] at h
    cases h
    simp

theorem asa_wants_unique {t : Cisco.RTerm} {p : Packet} {v w : String}
    (h : Flat.Wants "ciscoasa" Spec.Asa.actionNames t.expired t.term p v)
    (h' : Flat.Wants "ciscoasa" Spec.Asa.actionNames t.expired t.term p w) : v = w := by
  obtain ⟨_, _, x, e, h⟩ := h
  obtain ⟨_, _, y, e', h'⟩ := h'
  rw [e] at e'
  cases e'
  have key : ∀ a ∈ Spec.Asa.actionNames, ∀ b ∈ Spec.Asa.actionNames, a.1 = b.1 → a.2 = b.2 := by decide
  exact key _ h _ h' rfl

theorem asa_oneTerm {name : String} {r : Cisco.RTerm} (f : Spec.Asa.Live r → AsaFits r.term) {ls : List Asa.Line}
    (h : Verif.Asa.oneTerm name r = .ok ls) {p : Packet} (hc : Coherent p) (hv : p.ver = .v4) (a : String) :
    (∃ e ∈ ownEntries name ls, Spec.Asa.Hits e p ∧ e.action = some a ∧ (a = "permit" ∨ a = "deny")) ↔
      Flat.Wants "ciscoasa" Spec.Asa.actionNames r.expired r.term p a := by
  by_cases hl : Spec.Asa.Live r
  · have f := f hl
    have hact := (asa_live.1 hl).2
    have h0 := h
    unfold Verif.Asa.oneTerm at h
    rw [if_neg (by rw [hl.1]; decide)] at h
    obtain ⟨es, h1, rfl⟩ := asa_render f hact h
    have e0 : ownEntries name (es.map (.entry name)) = es := by
      unfold ownEntries
      rw [List.filterMap_map]
      simp only [Function.comp_def, if_true]
      exact List.filterMap_some
    obtain ⟨w, hw⟩ := f.action
    have hall : ∀ e ∈ es, e.action = Verif.Asa.actionTable.lookup w := by
      obtain ⟨src, dst, types, _, _, _, rfl⟩ := asa_entries_ok h1 hw
      intro e he
      obtain ⟨s, hs, d, hd, sp, hsp, dp, hdp, q, hq, ty, hty, rfl⟩ := mem_asaExpand.1 he
      rfl
    rw [e0]
    constructor
    · rintro ⟨e, he, hh, ha, hpd⟩
      refine ⟨hl, (asa_entries f hact h1 hc hv).1 ⟨e, he, hh⟩, w, hw, (asa_action f hact hw a).1 ⟨?_, hpd⟩⟩
      rw [← hall e he, ha]
    · rintro ⟨_, hm, w', hw', hin⟩
      rw [hw] at hw'
      cases hw'
      obtain ⟨e, he, hh⟩ := (asa_entries f hact h1 hc hv).2 hm
      obtain ⟨h2, h3⟩ := (asa_action f hact hw a).2 hin
      exact ⟨e, he, hh, by rw [hall e he, h2], h3⟩
  · rw [asa_notLive hl] at h
    cases h
    constructor
    · rintro ⟨e, he, _⟩
      cases he
    · rintro ⟨hl', _⟩
      exact absurd hl' hl

theorem ownEntries_append {name : String} {a b : List Asa.Line} :
    ownEntries name (a ++ b) = ownEntries name a ++ ownEntries name b := List.filterMap_append

theorem ownEntries_flat {name : String} : ∀ {bs : List (List Asa.Line)},
    ownEntries name (bs.flatMap id) = bs.flatMap (ownEntries name)
  | [] => rfl
  | b :: bs => by rw [List.flatMap_cons, ownEntries_append, ownEntries_flat, List.flatMap_cons]; rfl

theorem asa_others {name : String} {fs : List Verif.Asa.Filter} {bs : List (List Asa.Line)}
    (h : listM Verif.Asa.oneFilter fs = .ok bs) (hn : ∀ g ∈ fs, Verif.Asa.nameOf g ≠ name) :
    Line.clear name ∉ bs.flatMap id ∧ ownEntries name (bs.flatMap id) = [] := by
  have key : ∀ b ∈ bs, ∀ l ∈ b, l ≠ .clear name ∧ ∀ e, l ≠ .entry name e := by
    intro b hb l hl
    obtain ⟨g, hg, h1⟩ := (listM_mem h b).1 hb
    obtain ⟨cs, _, rfl, h2⟩ := asa_oneFilter h1
    have := hn g hg
    rcases List.mem_cons.1 hl with rfl | hl
    · exact ⟨fun e => this (by cases e; rfl), fun e h => by cases h⟩
    · rcases h2 l hl with ⟨e, rfl⟩ | ⟨s, rfl⟩ | rfl
      · exact ⟨fun h => by (cases h), fun e' h => this (by cases h; rfl)⟩
      · exact ⟨fun h => by (cases h), fun e' h => by cases h⟩
      · exact ⟨fun h => by (cases h), fun e' h => by cases h⟩
  constructor
  · intro hm
    obtain ⟨b, hb, hl⟩ := List.mem_flatMap.1 hm
    exact (key b hb _ hl).1 rfl
  · unfold ownEntries
    rw [List.filterMap_eq_nil_iff]
    intro l hl
    obtain ⟨b, hb, hl⟩ := List.mem_flatMap.1 hl
    cases l with
    | entry n e =>
      dsimp only
      rw [if_neg]
      rintro rfl
      exact (key b hb _ hl).2 e rfl
    | _ => rfl

theorem listM_split {f : α → Except Err β} : ∀ {xs ys : List α} {l : List β}, listM f (xs ++ ys) = .ok l →
    ∃ l1 l2, listM f xs = .ok l1 ∧ listM f ys = .ok l2 ∧ l = l1 ++ l2
  | [], ys, l, h => ⟨[], l, rfl, h, rfl⟩
  | x :: xs, ys, l, h => by
    rw [List.cons_append] at h
    unfold listM at h
    obtain ⟨b, h1, h⟩ := bind_ok h
    obtain ⟨bs, h2, h⟩ := bind_ok h
    cases h
    obtain ⟨l1, l2, h3, h4, rfl⟩ := listM_split h2
    refine ⟨b :: l1, l2, ?_, h4, rfl⟩
    unfold listM
    rw [h1, h3]
    rfl

/-- **C115 (partial)**: a list on the device decides on packets as the filter it is named after. The list has the terms of that
filter only, and all of them. Missing: policies in which a later filter has the same name, and terms outside `AsaFits`. -/
theorem C115_partial {fs pre post : List Verif.Asa.Filter} {f : Verif.Asa.Filter} {name : String} {rest : List String}
    {ls : List Asa.Line} (h : Verif.Asa.translate fs = .ok ls) (hf : fs = pre ++ f :: post) (hname : f.options = name :: rest)
    (hnone : name ≠ "None") (hlast : ∀ g ∈ post, g.options.head? ≠ some name)
    (hverb : ∀ g ∈ fs, ∀ r ∈ g.terms, Spec.Asa.Live r → r.term.verbatim = [])
    (hfit : ∀ r ∈ f.terms, Spec.Asa.Live r → AsaFits r.term) {p : Packet} (hc : Coherent p) (hv : p.ver = .v4) (a : String) :
    Spec.Asa.Decides name ls p a ↔ Spec.Asa.PolicyDecides f.terms p a := by
  unfold Verif.Asa.translate at h
  obtain ⟨bs, h1, h⟩ := bind_ok h
  cases h
  have hnv : ∀ s, Line.verbatim s ∉ bs.flatMap id := by
    intro s hm
    obtain ⟨b, hb, hl⟩ := List.mem_flatMap.1 hm
    obtain ⟨g, hg, h2⟩ := (listM_mem h1 b).1 hb
    obtain ⟨cs, h3, rfl, _⟩ := asa_oneFilter h2
    rcases List.mem_cons.1 hl with h | hl
    · cases h
    · obtain ⟨c, hc', hl⟩ := List.mem_flatMap.1 hl
      obtain ⟨r, hr, h4⟩ := (listM_mem h3 c).1 hc'
      exact asa_noVerbatim (hverb g hg r hr) h4 s hl
  subst hf
  obtain ⟨b1, b2, h2, h3, rfl⟩ := listM_split h1
  unfold listM at h3
  obtain ⟨b, h4, h3⟩ := bind_ok h3
  obtain ⟨b3, h5, h3⟩ := bind_ok h3
  cases h3
  obtain ⟨cs, h6, rfl, h7⟩ := asa_oneFilter h4
  have hname' : Verif.Asa.nameOf f = name := by
    unfold Verif.Asa.nameOf
    rw [hname]
    rfl
  rw [hname'] at h6 h7
  obtain ⟨h8, h9⟩ := asa_others (name := name) h5 (by
    intro g hg
    unfold Verif.Asa.nameOf
    have := hlast g hg
    cases ho : g.options.head? with
    | none => exact fun e => hnone e.symm
    | some n =>
      rw [ho] at this
      exact fun e => this (by rw [← e]; rfl))
  have hls : Spec.Asa.listed name ((b1 ++ (Line.clear (Verif.Asa.nameOf f) :: cs.flatMap id) :: b3).flatMap id) =
      cs.flatMap (ownEntries name) := by
    rw [List.flatMap_append, List.flatMap_cons, hname']
    show Spec.Asa.listed name (b1.flatMap id ++ (Line.clear name :: (cs.flatMap id ++ b3.flatMap id))) = _
    rw [asa_listed, ownEntries_append, h9, List.append_nil, ownEntries_flat]
    intro hm
    rcases List.mem_append.1 hm with hm | hm
    · rcases h7 _ hm with ⟨e, h⟩ | ⟨s, h⟩ | h <;> cases h
    · exact h8 hm
  unfold Spec.Asa.Decides Spec.Asa.PolicyDecides
  rw [hls, and_iff_right hnv]
  obtain ⟨hlen, hz⟩ := listM_zip h6
  have key := Lemmas.first_blocks
    (hit := fun (e : Entry) a => Spec.Asa.Hits e p ∧ e.action = some a ∧ (a = "permit" ∨ a = "deny"))
    (want := fun (r : Cisco.RTerm) a => Flat.Wants "ciscoasa" Spec.Asa.actionNames r.expired r.term p a)
    (fun t v w => asa_wants_unique)
    (ts := (f.terms.zip cs).map fun e => (e.1, ownEntries name e.2)) (v := a) (by
      intro e he w
      obtain ⟨⟨t, c⟩, hm, rfl⟩ := List.mem_map.1 he
      exact asa_oneTerm (hfit t (List.of_mem_zip hm).1) (hz _ hm) hc hv w)
  have e1 : ((f.terms.zip cs).map fun e => (e.1, ownEntries name e.2)).map Prod.fst = f.terms := by
    rw [List.map_map]
    exact List.map_fst_zip (by omega)
  have e2 : ((f.terms.zip cs).map fun e => (e.1, ownEntries name e.2)).flatMap Prod.snd = cs.flatMap (ownEntries name) := by
    rw [List.flatMap_map]
    have : (f.terms.zip cs).map Prod.snd = cs := List.map_snd_zip (by omega)
    conv => rhs; rw [← this, List.flatMap_map]
  rw [e1, e2] at key
  exact key

/-! ### the device understands the lines -/

/-- **C116 (partial)**: every line is a command about the access list of a filter that is for the device. Missing: policies
with filters for other platforms, terms with `next` and terms outside `AsaFits`. -/
theorem C116_partial {fs : List Verif.Asa.Filter} {ls : List Asa.Line} (h : Verif.Asa.translate fs = .ok ls)
    (hnames : ∀ f ∈ fs, f.options ≠ [])
    (hfit : ∀ f ∈ fs, ∀ r ∈ f.terms, Spec.Asa.Live r → AsaFits r.term ∧ "next" ∉ r.term.action) :
    ∀ l ∈ ls, Spec.Asa.Understood (fs.filterMap fun f => f.options.head?) l := by
  unfold Verif.Asa.translate at h
  obtain ⟨bs, h1, h⟩ := bind_ok h
  cases h
  intro l hl
  obtain ⟨b, hb, hl⟩ := List.mem_flatMap.1 hl
  obtain ⟨f, hf, h2⟩ := (listM_mem h1 b).1 hb
  obtain ⟨cs, h3, rfl, _⟩ := asa_oneFilter h2
  have hn : Verif.Asa.nameOf f ∈ fs.filterMap fun f => f.options.head? := by
    rw [List.mem_filterMap]
    refine ⟨f, hf, ?_⟩
    unfold Verif.Asa.nameOf
    cases ho : f.options with
    | nil => exact absurd ho (hnames f hf)
    | cons a _ => rfl
  rcases List.mem_cons.1 hl with rfl | hl
  · exact hn
  obtain ⟨c, hc, hl⟩ := List.mem_flatMap.1 hl
  obtain ⟨r, hr, h4⟩ := (listM_mem h3 c).1 hc
  by_cases hlive : Spec.Asa.Live r
  · obtain ⟨f', hnext⟩ := hfit f hf r hr hlive
    have hact := (asa_live.1 hlive).2
    unfold Verif.Asa.oneTerm at h4
    rw [if_neg (by rw [hlive.1]; decide)] at h4
    obtain ⟨es, h5, rfl⟩ := asa_render f' hact h4
    obtain ⟨e, he, rfl⟩ := List.mem_map.1 hl
    obtain ⟨w, hw⟩ := f'.action
    obtain ⟨src, dst, types, _, _, _, rfl⟩ := asa_entries_ok h5 hw
    obtain ⟨s, hs, d, hd, sp, hsp, dp, hdp, q, hq, ty, hty, rfl⟩ := mem_asaExpand.1 he
    refine ⟨hn, ?_, ?_, ?_, ?_⟩
    · have hm : w ∈ ["accept", "deny", "reject", "next", "reject-with-tcp-rst"] :=
        word_known (g := Verif.Asa.tables) asa_tables_ok hact f'.keywords (el := "action") (l := r.term.action)
          (ok := ["accept", "deny", "reject", "next", "reject-with-tcp-rst"]) (by simp [attrsOf]) rfl (by decide)
          (by rw [hw]; simp)
      have hne : w ≠ "next" := by
        rintro rfl
        exact hnext (by rw [hw]; simp)
      simp only [List.mem_cons, List.not_mem_nil, or_false] at hm
      dsimp only
      rcases hm with rfl | rfl | rfl | rfl | rfl
      · exact .inl rfl
      · exact .inr rfl
      · exact .inr rfl
      · exact absurd rfl hne
      · exact .inr rfl
    · unfold Verif.Asa.protocols at hq
      split at hq
      · exact .inl (List.mem_singleton.1 hq)
      · obtain ⟨n, h6, _⟩ := f'.protos q hq
        exact .inr (List.mem_map.2 ⟨_, h6, rfl⟩)
    · intro x hx
      dsimp only at hx ⊢
      have hne : r.term.sourcePort ++ r.term.destinationPort ≠ [] := by
        intro e
        rw [List.append_eq_nil_iff] at e
        rw [asa_ports_none hsp e.1, asa_ports_none hdp e.2] at hx
        cases hx
      obtain ⟨h6, h7⟩ := asa_withPorts f' hne hq
      refine ⟨h6, ?_⟩
      have : ∀ o, x ∈ Verif.Asa.portsOf q o → (Spec.Asa.numberOf (Spec.Asa.portNames q) x).isSome = true := by
        intro o ho
        unfold Verif.Asa.portsOf at ho
        split at ho
        · cases ho
        · split at ho
          · simp only [List.mem_cons, List.not_mem_nil, or_false] at ho
            rcases ho with rfl | rfl <;> (rw [asa_portName h7]; rfl)
          · rw [List.mem_singleton.1 ho, asa_portName h7]
            rfl
      rcases List.mem_append.1 hx with hx | hx
      · exact this _ hx
      · exact this _ hx
    · intro w hw'
      obtain ⟨k, _, rfl⟩ := Option.map_eq_some_iff.1 hw'
      rw [asa_icmpName]
      rfl
  · rw [asa_notLive hlive] at h4
    cases h4
    cases hl

/-! ### verbatim texts -/

/-- The verbatim texts among lines. -/
def asaVerbatims (ls : List Asa.Line) : List String :=
  ls.filterMap fun l => match l with
    | .verbatim s => some s
    | _ => none

theorem asaVerbatims_flat : ∀ (bs : List (List Asa.Line)), asaVerbatims (bs.flatMap id) = bs.flatMap asaVerbatims
  | [] => rfl
  | b :: bs => by
    rw [List.flatMap_cons, List.flatMap_cons, ← asaVerbatims_flat bs]
    exact List.filterMap_append

theorem flat_congr {f : α → Except Err β} {g : β → List γ} {g' : α → List γ} : ∀ {xs : List α} {ys : List β},
    listM f xs = .ok ys → (∀ x ∈ xs, ∀ y, f x = .ok y → g y = g' x) → ys.flatMap g = xs.flatMap g'
  | [], ys, h, _ => by
    cases h
    rfl
  | x :: xs, ys, h, hg => by
    unfold listM at h
    obtain ⟨b, h1, h⟩ := bind_ok h
    obtain ⟨bs, h2, h⟩ := bind_ok h
    cases h
    rw [List.flatMap_cons, List.flatMap_cons, hg x (by simp) b h1,
      flat_congr h2 fun y hy => hg y (List.mem_cons_of_mem _ hy)]

/-- **C117 (partial)**: the verbatim texts in the output are those the terms that count have for the platform, in their order.
Missing: terms with more than one verbatim text, and terms with the protocol icmpv6 next to a verbatim text. -/
theorem C117_partial {fs : List Verif.Asa.Filter} {ls : List Asa.Line} (h : Verif.Asa.translate fs = .ok ls)
    (hone : ∀ f ∈ fs, ∀ r ∈ f.terms, Spec.Asa.Live r → r.term.verbatim.length ≤ 1 ∧ "icmpv6" ∉ r.term.protocol) :
    (ls.filterMap fun l => match l with | .verbatim s => some s | _ => none) = Spec.Asa.verbatimOf fs := by
  unfold Verif.Asa.translate at h
  obtain ⟨bs, h1, h⟩ := bind_ok h
  cases h
  show asaVerbatims _ = _
  rw [asaVerbatims_flat]
  have each : ∀ f ∈ fs, ∀ b, Verif.Asa.oneFilter f = .ok b → asaVerbatims b = Spec.Asa.verbatimIn f.terms := by
    intro f hf b hb
    obtain ⟨cs, h3, rfl, _⟩ := asa_oneFilter hb
    show asaVerbatims (cs.flatMap id) = _
    rw [asaVerbatims_flat]
    unfold Spec.Asa.verbatimIn
    refine flat_congr h3 ?_
    intro r hr c hc
    by_cases hl : Spec.Asa.Live r
    · obtain ⟨h5, h6⟩ := hone f hf r hr hl
      rw [if_pos hl]
      unfold Verif.Asa.oneTerm at hc
      rw [if_neg (by rw [hl.1]; decide)] at hc
      unfold Verif.Asa.render at hc
      rw [if_neg (by rw [(Cisco.onPlatform_iff (c := ⟨"ciscoasa", false⟩)).2 (asa_live.1 hl).2]; decide),
        if_neg (fun h => h6 (List.contains_iff_mem.1 h))] at hc
      cases hv : r.term.verbatim with
      | nil =>
        rw [hv] at hc
        obtain ⟨es, _, hc⟩ := bind_ok hc
        cases hc
        unfold asaVerbatims
        simp
      | cons v vs =>
        rw [hv] at hc h5
        have : vs = [] := by
          cases vs with
          | nil => rfl
          | cons _ _ => simp at h5
        subst this
        cases hc
        by_cases e : v.1 = "ciscoasa" <;> simp [e, asaVerbatims]
    · rw [if_neg hl]
      rw [asa_notLive hl] at hc
      cases hc
      rfl
  exact flat_congr h1 each

end Verif.Props
