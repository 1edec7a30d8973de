import Verif.Props.CiscoDedup
import Verif.Lemmas.FirstMatch

/-!
# C63, C64: standard lists and object-group entries
-/

namespace Verif.Spec
namespace Ios
open Verif Verif.Cisco

/-- Reads an entry of a standard list: an optional `access-list N`, the action, the source and an optional
`log`. -/
def parseStd : List Tok → Option (Bool × AddrSpec)
  | .w "access-list" :: .w _ :: r => entry r
  | r => entry r
where
  /-- The action. -/
  entry : List Tok → Option (Bool × AddrSpec)
    | .w "permit" :: r => (addr r).map fun a => (true, a)
    | .w "deny" :: r => (addr r).map fun a => (false, a)
    | _ => none
  /-- The source and the rest. -/
  addr : List Tok → Option AddrSpec
    | .w "any" :: r => rest .any r
    | .w "host" :: .ip .v4 a :: r => rest (.host .v4 a) r
    | .ip .v4 a :: .ip .v4 m :: r => rest (.wild a m) r
    | .ip .v4 a :: r => rest (.host .v4 a) r
    | .pfx .v4 a l :: r => rest (.pfx .v4 a l) r
    | _ => none
  /-- Nothing or `log`. -/
  rest (s : AddrSpec) : List Tok → Option AddrSpec
    | [] => some s
    | [.w "log"] => some s
    | _ => none

/-- The line is an entry of a standard list with the action that matches the source address. -/
def StdMatches (l : Cisco.Line) (permit : Bool) (x : Nat) : Prop :=
  ∃ toks a, l = .ace toks ∧ parseStd toks = some (permit, a) ∧ a.Matches .v4 x

/-- Reads an address of an object-group entry: `any` or a group. -/
def parseGAddr : List GTok → Option (Option String × List GTok)
  | .tok (.w "any") :: r => some (none, r)
  | .netGroup n :: r => some (some n, r)
  | _ => none

/-- Reads an optional port group. -/
def parseGPort : List GTok → Option Policy.PortRange × List GTok
  | .portGroup lo hi :: r => (some (lo, hi), r)
  | r => (none, r)

/-- An object-group entry. -/
structure GAce where
  permit : Bool
  proto : Tok
  src : Option String
  sport : Option Policy.PortRange
  dst : Option String
  dport : Option Policy.PortRange

/-- Reads the part of an object-group entry after the action. -/
def parseGBody (permit : Bool) : List GTok → Option GAce
  | .tok proto :: r => do
    let (sa, r) ← parseGAddr r
    let (sp, r) := parseGPort r
    let (da, r) ← parseGAddr r
    let (dp, r) := parseGPort r
    if r = [] then some ⟨permit, proto, sa, sp, da, dp⟩ else none
  | _ => none

/-- Reads an object-group entry. -/
def parseGAce : List GTok → Option GAce
  | .tok (.w "permit") :: r => parseGBody true r
  | .tok (.w "deny") :: r => parseGBody false r
  | _ => none

/-- A group of the family with the name contains the address. -/
def InGroup (gs : List NetGroup) (v : Ver) (x : Nat) (o : Option String) : Prop :=
  ∀ n, o = some n → ∃ g ∈ gs, g.name = n ∧ g.af = v ∧ Den g.nets v x

/-- The port group is defined and contains the port. -/
def InPorts (ps : List Policy.PortRange) (x : Nat) (o : Option Policy.PortRange) : Prop :=
  ∀ r, o = some r → r ∈ ps ∧ r.1 ≤ x ∧ x ≤ r.2

/-- The entry with the action matches the packet, given the groups. -/
def GLineMatches (v : Ver) (gs : List NetGroup) (ps : List Policy.PortRange) (toks : List GTok) (permit : Bool)
    (p : Packet) : Prop :=
  ∃ a, parseGAce toks = some a ∧ a.permit = permit ∧ p.ver = v ∧ ProtoMatches v a.proto p ∧
    InGroup gs v p.src a.src ∧ InGroup gs v p.dst a.dst ∧ InPorts ps p.sport a.sport ∧ InPorts ps p.dport a.dport

/-- The first matching entry of an object-group list has the action, given the groups. -/
def GDecides (v : Ver) (gs : List NetGroup) (ps : List Policy.PortRange) (ls : List (Sum (List GTok) String)) (p : Packet)
    (permit : Bool) : Prop :=
  First (fun l b => ∃ toks, l = .inl toks ∧ GLineMatches v gs ps toks b p) ls permit

end Ios
end Verif.Spec

namespace Verif.Props
open Verif Verif.Lemmas Verif.Cisco Policy Aclgenerator Nacaddr Spec Spec.Ios

/-! ### C63 -/

theorem std_rest (log : List String) (s : AddrSpec) :
    parseStd.rest s (if log.isEmpty then [] else [.w "log"]) = some s := by
  split <;> rfl

theorem std_addr {c : Cfg} {numbered : Bool} {n : Net} (w : WF n) (h4 : n.ver = .v4) (log : List String) :
    ∃ s, parseStd.addr (standardAddr c numbered n ++ (if log.isEmpty then [] else [.w "log"])) = some s ∧
      ∀ x, x < 2 ^ 32 → (s.Matches .v4 x ↔ Mem n .v4 x) := by
  unfold standardAddr
  split
  next h32 =>
    refine ⟨.host .v4 n.addr, ?_, ?_⟩
    · split
      · show parseStd.addr (.ip .v4 n.addr :: _) = _
        cases log <;> rfl
      · exact std_rest log _
    · intro x _
      have := host_net w (by rw [num_addresses w, h4, h32]; decide) .v4 x
      rw [h4] at this
      exact this
  next =>
    split
    · refine ⟨.pfx .v4 n.addr n.plen, std_rest log _, ?_⟩
      intro x _
      rw [mem_iff_div w]
      simp only [AddrSpec.Matches, h4]
    · exact ⟨.wild n.addr n.hostmask, std_rest log _, fun x hx => wild_net w h4 .v4 hx⟩

theorem std_any (log : List String) :
    parseStd.addr ([.w "any"] ++ (if log.isEmpty then [] else [.w "log"])) = some .any := std_rest log _

theorem std_action {a : String} (ha : a ∈ ["accept", "deny", "reject", "next", "reject-with-tcp-rst"]) :
    (a = "next" ∧ (actionTable.lookup a).getD [.w "None"] = [.w "!", .w "next"]) ∨
    ∃ permit, Permits a permit ∧ (actionTable.lookup a).getD [.w "None"] = actTok permit := by
  simp only [List.mem_cons, List.not_mem_nil, or_false] at ha
  rcases ha with rfl | rfl | rfl | rfl | rfl
  · exact .inr ⟨true, .inl ⟨rfl, rfl⟩, rfl⟩
  · exact .inr ⟨false, .inr ⟨.inl rfl, rfl⟩, rfl⟩
  · exact .inr ⟨false, .inr ⟨.inr (.inl rfl), rfl⟩, rfl⟩
  · exact .inl ⟨rfl, rfl⟩
  · exact .inr ⟨false, .inr ⟨.inr (.inr rfl), rfl⟩, rfl⟩

theorem parse_std (name : Str) (permit : Bool) (r : List Tok) :
    parseStd ((if (!name.isEmpty && name.all PyStr.isDigit) = true then [.w "access-list", .w (String.ofList name)] else []) ++
      (actTok permit ++ r)) = (parseStd.addr r).map fun a => (permit, a) := by
  split <;> cases permit <;> rfl

/-- C63 (partial): a term of a standard list matches exactly the packets whose source is one of its IPv4 addresses
(every packet, if it has no address), with its action. Missing: terms that have IPv6 addresses only (see
`C40_refuted_standard`). -/
theorem C63_standard_partial {c : Cfg} {name : Str} {t : Term} {a : String} {ls : List Cisco.Line}
    (h : renderStandard c name t = .ok ls) (hv : t.verbatim = []) (ha : t.action = [a])
    (hk : a ∈ ["accept", "deny", "reject", "next", "reject-with-tcp-rst"]) (hw : ∀ n ∈ t.address, WF n)
    (h4 : t.address ≠ [] → ∃ n ∈ t.address, n.ver = .v4) {x : Nat} (hx : x < 2 ^ 32) (b : Bool) :
    (∃ l ∈ ls, StdMatches l b x) ↔ Meant c.platform t ∧ Permits a b ∧ (t.address = [] ∨ Den t.address .v4 x) := by
  unfold renderStandard at h
  by_cases hon : onPlatform c.platform t = true
  case neg =>
    rw [if_pos (by simpa using hon)] at h
    cases h
    constructor
    · rintro ⟨l, hl, _⟩; cases hl
    · rintro ⟨hm, _⟩; exact absurd (groupOn_iff.2 hm) hon
  case pos =>
    rw [hon, hv, ha] at h
    simp only [Bool.not_true, Bool.false_eq_true, if_false, List.isEmpty_nil] at h
    cases h
    have hm : Meant c.platform t := groupOn_iff.1 hon
    rcases std_action hk with ⟨rfl, e⟩ | ⟨permit, hpm, e⟩
    · rw [e]
      constructor
      · rintro ⟨l, hl, toks, s, rfl, hp, _⟩
        obtain ⟨as, _, e⟩ := List.mem_map.1 hl
        cases e
        split at hp <;> cases hp
      · rintro ⟨_, h, _⟩
        rcases h with ⟨h, _⟩ | ⟨h | h | h, _⟩ <;> exact absurd h (by decide)
    · rw [e]
      have hf : ∀ n, n ∈ (t.address.filter fun n => n.ver != .v6) ↔ n ∈ t.address ∧ n.ver = .v4 := by
        intro n
        rw [List.mem_filter]
        apply and_congr_right
        intro _
        cases n.ver <;> decide
      by_cases h0 : t.address = []
      · simp only [h0, List.filter_nil, List.isEmpty_nil, if_true, List.map_cons, List.map_nil, List.mem_singleton]
        constructor
        · rintro ⟨l, rfl, toks, s, e, hp, _⟩
          cases e
          rw [parse_std, std_any] at hp
          cases hp
          exact ⟨hm, hpm, .inl trivial⟩
        · rintro ⟨_, hb, _⟩
          refine ⟨_, rfl, _, .any, rfl, ?_, trivial⟩
          rw [parse_std, std_any, permits_unique hb hpm]
          rfl
      · obtain ⟨n0, hn0, hv0⟩ := h4 h0
        have hne : (t.address.filter fun n => n.ver != .v6).isEmpty = false := by
          have : n0 ∈ t.address.filter fun n => n.ver != .v6 := (hf n0).2 ⟨hn0, hv0⟩
          cases hl : t.address.filter fun n => n.ver != .v6 with
          | nil => rw [hl] at this; cases this
          | cons => rfl
        simp only [hne, Bool.false_eq_true, if_false, List.mem_map]
        constructor
        · rintro ⟨l, ⟨toks, ⟨n, hn, rfl⟩, rfl⟩, toks', s, e, hp, hs⟩
          cases e
          obtain ⟨hn1, hn2⟩ := (hf n).1 hn
          obtain ⟨s', q1, q2⟩ := std_addr (c := c) (numbered := !name.isEmpty && name.all PyStr.isDigit) (hw n hn1) hn2 t.logging
          rw [parse_std, q1] at hp
          cases hp
          exact ⟨hm, hpm, .inr ⟨n, hn1, (q2 x hx).1 hs⟩⟩
        · rintro ⟨_, hb, hd⟩
          obtain ⟨n, hn, hmem⟩ := hd.resolve_left h0
          obtain ⟨s', q1, q2⟩ := std_addr (c := c) (numbered := !name.isEmpty && name.all PyStr.isDigit) (hw n hn) hmem.1 t.logging
          refine ⟨_, ⟨_, ⟨n, (hf n).2 ⟨hn, hmem.1⟩, rfl⟩, rfl⟩, _, s', rfl, ?_, (q2 x hx).2 hmem⟩
          rw [parse_std, q1, permits_unique hb hpm]
          rfl

example : ∃ ls, renderStandard eos "99".toList
      { action := ["reject"], address := [ip4 10 0 0 0 8, ip4 11 0 0 1 32, ip6 0x20 16], logging := ["true"] } = .ok ls ∧
    ls.length = 2 := ⟨_, rfl, by decide⟩

/-! ### C64 -/

/-- The entries of an object-group list for one term. -/
theorem groupAddr_cases (l : List Net) (hn : ∀ n ∈ l, n.parent ≠ "any" ∧ n.parent ≠ "") :
    (l = [] ∧ groupAddr (groupName l) = [.tok (.w "any")]) ∨
    ∃ n ns, l = n :: ns ∧ groupAddr (groupName l) = [.netGroup n.parent] := by
  cases l with
  | nil => exact .inl ⟨rfl, rfl⟩
  | cons n ns =>
    refine .inr ⟨n, ns, rfl, ?_⟩
    obtain ⟨h1, h2⟩ := hn n (by simp)
    show groupAddr n.parent = _
    unfold groupAddr
    rw [if_neg h2, if_neg h1]

theorem group_parse (permit : Bool) (proto : Tok) (sa da : GTok) (so do' : Option String) (sp dp : Option Policy.PortRange)
    (hs : ∀ r, parseGAddr (sa :: r) = some (so, r)) (hd : ∀ r, parseGAddr (da :: r) = some (do', r))
    (hd' : ∀ r, parseGPort (da :: r) = (none, da :: r)) :
    parseGAce ((actTok permit).map GTok.tok ++ (.tok proto :: ([sa] ++ ((sp.toList.map fun r => GTok.portGroup r.1 r.2) ++
      ([da] ++ (dp.toList.map fun r => GTok.portGroup r.1 r.2)))))) = some ⟨permit, proto, so, sp, do', dp⟩ := by
  have body : parseGBody permit (.tok proto :: ([sa] ++ ((sp.toList.map fun r => GTok.portGroup r.1 r.2) ++
      ([da] ++ (dp.toList.map fun r => GTok.portGroup r.1 r.2))))) = some ⟨permit, proto, so, sp, do', dp⟩ := by
    simp only [parseGBody, List.singleton_append, hs, bind, Option.bind]
    cases sp with
    | none =>
      simp only [Option.toList_none, List.map_nil, List.nil_append, hd', hd]
      cases dp <;> rfl
    | some r =>
      simp only [Option.toList_some, List.map_cons, List.map_nil, List.cons_append, List.nil_append, parseGPort, hd]
      cases dp <;> rfl
  cases permit
  · exact body
  · exact body

/-- The protocol of an object-group entry. -/
def groupOne (extra : List String) (s : String) : Option Proto :=
  if (allowedProtos ++ extra.map Proto.str).contains (protoNumber (.str s)) then some (protoNumber (.str s))
  else protoGet (protoNumber (.str s))

theorem group_tokens : ∀ c ∈ cfgs, ∀ e ∈ iana, e.1 ≠ "icmp" →
    protoTok (groupOne (groupExtra c) e.1) = .num e.2 ∨
    (protoTok (groupOne (groupExtra c) e.1) = .w e.1 ∧ e.1 ≠ "ipv6") := by
  decide

theorem group_icmp : ∀ c ∈ cfgs, protoTok (groupOne (groupExtra c) "icmp") = .w "icmp" := by decide

theorem group_proto {c : Cfg} (hc : c ∈ cfgs) {v : Ver} {s : String} (hs : s ∈ iana.map Prod.fst)
    (hi : ¬ (v = .v6 ∧ s = "icmp")) {p : Packet} :
    ProtoMatches v (protoTok (groupOne (groupExtra c) s)) p ↔ p.proto = s := by
  obtain ⟨e, he, rfl⟩ := List.mem_map.1 hs
  have hw := iana_words e he
  have word : protoTok (groupOne (groupExtra c) e.1) = .w e.1 → e.1 ≠ "ipv6" →
      (ProtoMatches v (protoTok (groupOne (groupExtra c) e.1)) p ↔ p.proto = e.1) := by
    intro h h6
    rw [h]
    unfold ProtoMatches
    dsimp only
    constructor
    · rintro (⟨h | h, _⟩ | ⟨h, hv⟩ | ⟨h, _⟩ | ⟨h, hv, _⟩ | h)
      · exact absurd h hw.1
      · exact absurd h hw.2.1
      · exact absurd h h6
      · exact absurd h hw.2.2
      · exact absurd ⟨hv, h⟩ hi
      · exact h
    · intro h; exact .inr (.inr (.inr (.inr h)))
  by_cases hicmp : e.1 = "icmp"
  · exact word (by rw [hicmp]; exact group_icmp c hc) (by rw [hicmp]; decide)
  · rcases group_tokens c hc e he hicmp with h | ⟨h, h6⟩
    · rw [h]; exact iana_num he p
    · exact word h h6

theorem groupProtocols_match {c : Cfg} (hc : c ∈ cfgs) {af : Ver} {l : List String} (hn : ∀ s ∈ l, s ∈ iana.map Prod.fst)
    (hi : ¬ (af = .v6 ∧ "icmp" ∈ l)) {p : Packet} :
    (∃ q ∈ groupProtocols (groupExtra c) (groupPlatform c) af ((l.map .str).map protoNumber),
      ProtoMatches af (protoTok q) p) ↔ OneOf l p.proto := by
  by_cases h0 : l = []
  · subst h0
    have : ∃ s, groupProtocols (groupExtra c) (groupPlatform c) af [] = [some (.str s)] ∧ protoTok (some (.str s)) = .w s ∧
        (s = "ip" ∧ af = .v4 ∨ s = "ipv4" ∧ af = .v4 ∨ s = "ipv6" ∧ af = .v6) := by
      have hc' := hc
      simp only [cfgs, List.mem_cons, List.not_mem_nil, or_false] at hc'
      rcases hc' with rfl | rfl | rfl | rfl | rfl <;> cases af <;> exact ⟨_, rfl, by decide, by decide⟩
    obtain ⟨s, e, et, hs⟩ := this
    show (∃ q ∈ groupProtocols (groupExtra c) (groupPlatform c) af [], _) ↔ _
    rw [e]
    refine ⟨fun _ => .inl rfl, fun _ => ⟨_, List.mem_singleton.2 rfl, ?_⟩⟩
    rw [et]
    rcases hs with ⟨rfl, ha⟩ | ⟨rfl, ha⟩ | ⟨rfl, ha⟩
    · exact .inl ⟨.inl rfl, ha⟩
    · exact .inl ⟨.inr rfl, ha⟩
    · exact .inr (.inl ⟨rfl, ha⟩)
  · have e : groupProtocols (groupExtra c) (groupPlatform c) af ((l.map .str).map protoNumber) =
        l.map (groupOne (groupExtra c)) := by
      unfold groupProtocols
      rw [if_neg (by cases l with | nil => exact absurd rfl h0 | cons => simp)]
      rw [List.map_map, List.map_map]
      rfl
    rw [e]
    have key : ∀ s ∈ l, (ProtoMatches af (protoTok (groupOne (groupExtra c) s)) p ↔ p.proto = s) :=
      fun s hs => group_proto hc (hn s hs) (fun h => hi ⟨h.1, h.2 ▸ hs⟩)
    constructor
    · rintro ⟨q, hq, hm⟩
      obtain ⟨s, hs, rfl⟩ := List.mem_map.1 hq
      rw [(key s hs).1 hm]
      exact .inr hs
    · rintro (h | h)
      · exact absurd h h0
      · exact ⟨_, List.mem_map.2 ⟨_, h, rfl⟩, (key _ h).2 rfl⟩

/-- The address lists of the terms can be named: each comes from one network with a name, and lists with the same
name have the same addresses of the family. -/
structure Named (af : Ver) (ts : List Term) : Prop where
  one : ∀ l ∈ lists ts, ∀ n ∈ l, ∀ m ∈ l, n.parent = m.parent
  same : ∀ l ∈ lists ts, ∀ m ∈ lists ts, ∀ a ∈ l, ∀ b ∈ m, a.parent = b.parent → ∀ x, Den l af x ↔ Den m af x
  names : ∀ l ∈ lists ts, ∀ n ∈ l, n.parent ≠ "any" ∧ n.parent ≠ ""

theorem group_den {af : Ver} {ts : List Term} (hn : Named af ts) {t : Term} (ht : t ∈ ts) {l : List Net}
    (hl : l = t.sourceAddress ∨ l = t.destinationAddress) (hf : l = [] ∨ ∃ n ∈ l, n.ver = af) {o : Option String}
    {g : GTok} (hg : groupAddr (groupName l) = [g]) (ho : ∀ r, parseGAddr (g :: r) = some (o, r)) (x : Nat) :
    InGroup (netGroups af ts) af x o ↔ AddrMatch l [] af x := by
  have hlm : l ∈ lists ts := mem_lists.2 ⟨t, ht, hl⟩
  have hd : AddrMatch l [] af x ↔ l = [] ∨ Den l af x := by
    unfold AddrMatch
    rw [and_iff_left]
    rintro ⟨_, h, _⟩; cases h
  rw [hd]
  rcases groupAddr_cases l (hn.names l hlm) with ⟨h0, e⟩ | ⟨n, ns, h1, e⟩
  · rw [e] at hg
    cases hg
    have := ho []
    cases this
    refine ⟨fun _ => .inl h0, fun _ => ?_⟩
    intro n h; cases h
  · rw [e] at hg
    cases hg
    have := ho []
    cases this
    have hne : l ≠ [] := by rw [h1]; simp
    obtain ⟨_, hfam, hex⟩ := C41_groups_partial af ts
    obtain ⟨g, hg, hname, hden, huniq⟩ := hex hn.one hn.same t ht l hl (hf.resolve_left hne)
    have hnp : n.parent = g.name := hname n (by rw [h1]; simp)
    constructor
    · intro h
      obtain ⟨g', hg', e', _, hx⟩ := h _ rfl
      rw [huniq g' hg' (by rw [e', hnp])] at hx
      exact .inr ((hden x).1 hx)
    · rintro (h | h)
      · exact absurd h hne
      · intro m em
        cases em
        exact ⟨g, hg, hnp.symm, (hfam g hg).1, (hden x).2 h⟩

theorem port_den {ts : List Term} {t : Term} (ht : t ∈ ts) {l : List Policy.PortRange}
    (hl : l = t.sourcePort ∨ l = t.destinationPort) (x : Nat) :
    (∃ o ∈ (if l.isEmpty then [none] else l.map some), InPorts (portGroups ts) x o) ↔ PortMatch l x := by
  unfold PortMatch
  cases l with
  | nil =>
    refine ⟨fun _ => .inl rfl, fun _ => ⟨none, by simp, ?_⟩⟩
    intro r h; cases h
  | cons r0 rs =>
    rw [if_neg (by simp)]
    constructor
    · rintro ⟨o, ho, h⟩
      obtain ⟨r, hr, rfl⟩ := List.mem_map.1 ho
      exact .inr ⟨r, hr, (h r rfl).2⟩
    · rintro (h | ⟨r, hr, h⟩)
      · cases h
      · refine ⟨some r, List.mem_map.2 ⟨r, hr, rfl⟩, ?_⟩
        intro r' e
        cases e
        refine ⟨(C41_ports ts).2 r |>.2 ⟨t, ht, ?_⟩, h⟩
        rcases hl with e | e
        · exact .inl (e ▸ hr)
        · exact .inr (e ▸ hr)

/-- What a term asks for, as a verdict. -/
theorem policy_first {platform : String} {p : Packet} {b : Bool} : ∀ {ts : List RTerm},
    (∀ r ∈ ts, Live platform r → Means r.term p → ∃ a, r.term.action = [a] ∧
      a ∈ ["accept", "deny", "reject", "next", "reject-with-tcp-rst"]) →
    (First (fun r b => Live platform r ∧ Means r.term p ∧ ∃ a, r.term.action = [a] ∧ Permits a b) ts b ↔
      PolicyDecides platform ts p b)
  | [], _ => by
    refine iff_of_false first_nil ?_
    rintro ⟨pre, r, post, a, e, _⟩
    cases pre <;> cases e
  | r :: ts, h => by
    rw [first_cons, policyDecides_cons, policy_first fun s hs => h s (List.mem_cons_of_mem _ hs)]
    refine or_congr Iff.rfl (and_congr ?_ Iff.rfl)
    constructor
    · rintro hn ⟨h1, h2, h3⟩
      obtain ⟨a, e, ha⟩ := h r (by simp) h1 h2
      rcases std_action ha with ⟨rfl, _⟩ | ⟨permit, hpm, _⟩
      · exact h3 e
      · exact hn permit ⟨h1, h2, a, e, hpm⟩
    · rintro hn w ⟨h1, h2, a, e, hp⟩
      refine hn ⟨h1, h2, ?_⟩
      intro e'
      rw [e] at e'
      cases e'
      rcases hp with ⟨h, _⟩ | ⟨h | h | h, _⟩ <;> exact absurd h (by decide)

/-- Preparing, dropping and rendering the terms one by one. -/
theorem first_rendered {A T L V : Type} {step : A → Except Err (Option T)} {keep : T → Bool}
    {render : T → Except Err (List L)} {hit : L → V → Prop} {want : A → V → Prop}
    (huniq : ∀ t v w, want t v → want t w → v = w) {v : V} : ∀ {ts : List A} {kept : List (Option T)} {ls : List L},
    listM step ts = .ok kept → concatM render ((kept.filterMap id).filter keep) = .ok ls →
    (∀ r ∈ ts, step r = .ok none → ∀ w, ¬ want r w) →
    (∀ r ∈ ts, ∀ t, step r = .ok (some t) → keep t = false → ∀ w, ¬ want r w) →
    (∀ r ∈ ts, ∀ t, step r = .ok (some t) → t ∈ (kept.filterMap id).filter keep → ∀ l, render t = .ok l →
      ∀ w, (∃ x ∈ l, hit x w) ↔ want r w) →
    (First hit ls v ↔ First want ts v)
  | [], kept, ls, h1, h2, _, _, _ => by
    cases h1
    cases h2
    exact iff_of_false first_nil first_nil
  | r :: ts, kept, ls, h1, h2, hn, hk, hh => by
    rw [listM] at h1
    obtain ⟨x, hx, h1⟩ := bind_ok h1
    obtain ⟨xs, hxs, h1⟩ := bind_ok h1
    cases h1
    have hn' := fun s hs => hn s (List.mem_cons_of_mem r hs)
    have hk' := fun s hs => hk s (List.mem_cons_of_mem r hs)
    rw [first_cons]
    cases x with
    | none =>
      have hw := hn r (by simp) hx
      rw [List.filterMap_cons_none rfl] at h2
      rw [first_rendered huniq hxs h2 hn' hk' fun s hs t ht hm => hh s (List.mem_cons_of_mem r hs) t ht hm]
      exact ⟨fun h => .inr ⟨hw, h⟩, fun h => h.elim (fun h => absurd h (hw v)) (·.2)⟩
    | some t =>
      rw [show List.filterMap id (some t :: xs) = t :: xs.filterMap id from rfl] at h2 hh
      by_cases hkt : keep t = true
      · rw [List.filter_cons_of_pos hkt] at h2 hh
        rw [concatM] at h2
        obtain ⟨l1, hl1, h2⟩ := bind_ok h2
        obtain ⟨l2, hl2, h2⟩ := bind_ok h2
        cases h2
        have ih := first_rendered (v := v) huniq hxs hl2 hn' hk' fun s hs t ht hm =>
          hh s (List.mem_cons_of_mem r hs) t ht (List.mem_cons_of_mem _ hm)
        have hb := hh r (by simp) t hx (by simp) l1 hl1
        rw [first_append, first_uniform fun l hl w hw m hm w' hw' =>
          huniq _ _ _ ((hb w).1 ⟨l, hl, hw⟩) ((hb w').1 ⟨m, hm, hw'⟩), hb v, ih]
        have : (∀ l ∈ l1, ∀ w, ¬ hit l w) ↔ ∀ w, ¬ want r w := by
          constructor
          · intro h w hw
            obtain ⟨l, hl, hm⟩ := (hb w).2 hw
            exact h l hl w hm
          · intro h l hl w hw
            exact h w ((hb w).1 ⟨l, hl, hw⟩)
        rw [this]
      · have hw := hk r (by simp) t hx (by simpa using hkt)
        rw [List.filter_cons_of_neg hkt] at h2 hh
        rw [first_rendered huniq hxs h2 hn' hk' fun s hs t ht hm => hh s (List.mem_cons_of_mem r hs) t ht hm]
        exact ⟨fun h => .inr ⟨hw, h⟩, fun h => h.elim (fun h => absurd h (hw v)) (·.2)⟩

/-- The terms an object-group list renders faithfully. -/
structure GFits (c : Cfg) (af : Ver) (t : Term) (a : String) : Prop where
  fits : Fits c af false t a
  srcExclude : t.sourceAddressExclude = []
  dstExclude : t.destinationAddressExclude = []
  option : t.option = []
  icmpType : t.icmpType = []
  icmpCode : t.icmpCode = []
  dscp : t.dscpMatch = []
  icmp6 : ¬ (af = .v6 ∧ "icmp" ∈ t.protocol)

theorem hasFamily_iff {af : Ver} {t : Term} : hasFamily af t = true ↔
    (t.sourceAddress = [] ∨ ∃ n ∈ t.sourceAddress, n.ver = af) ∧
    (t.destinationAddress = [] ∨ ∃ n ∈ t.destinationAddress, n.ver = af) := by
  simp [hasFamily]

/-- C64 for the conditions that matter. -/
theorem group_core {c : Cfg} (hc : c ∈ [ios, xr, nx, eos, brocade]) {af : Ver} {ts : List Term} (hn : Named af ts)
    {t : Term} (ht : t ∈ ts) {a : String} (hcore : Core c af false t a) (hon : Meant (groupPlatform c) t)
    (hx : t.sourceAddressExclude = [] ∧ t.destinationAddressExclude = [])
    (ho : t.option = [] ∧ t.icmpType = [] ∧ t.icmpCode = [] ∧ t.dscpMatch = []) (hf : FamilyOk af t)
    (h6 : ¬ (af = .v6 ∧ "icmp" ∈ t.protocol)) (hfam : (t.sourceAddress = [] ∨ ∃ n ∈ t.sourceAddress, n.ver = af) ∧
      (t.destinationAddress = [] ∨ ∃ n ∈ t.destinationAddress, n.ver = af))
    {ls : List (Sum (List GTok) String)} (h : renderGroupTerm (groupExtra c) (groupPlatform c) af t = .ok ls)
    {p : Packet} (hv : p.ver = af) (b : Bool) :
    (∃ toks, .inl toks ∈ ls ∧ GLineMatches af (netGroups af ts) (portGroups ts) toks b p) ↔
      Permits a b ∧ Matches t p := by
  rw [matches_fits hcore hv, ho.1, ho.2.1, ho.2.2.1, ho.2.2.2, hx.1, hx.2]
  unfold renderGroupTerm at h
  obtain ⟨ps, h1, h⟩ := bind_ok h
  rw [termProtocols_ok h1, groupOn_iff.2 hon, hcore.verbatim, hcore.action] at h
  simp only [Bool.not_true, Bool.false_eq_true, if_false, List.isEmpty_nil] at h
  cases h
  have hnS := hn.names _ (mem_lists.2 ⟨t, ht, .inl rfl⟩)
  have hnD := hn.names _ (mem_lists.2 ⟨t, ht, .inr rfl⟩)
  have addr : ∀ l : List Net, (∀ n ∈ l, n.parent ≠ "any" ∧ n.parent ≠ "") → ∃ g o, groupAddr (groupName l) = [g] ∧
      (∀ r, parseGAddr (g :: r) = some (o, r)) ∧ ∀ r, parseGPort (g :: r) = (none, g :: r) := by
    intro l hl
    rcases groupAddr_cases l hl with ⟨_, e⟩ | ⟨n, ns, _, e⟩
    · exact ⟨_, none, e, fun r => rfl, fun r => rfl⟩
    · exact ⟨_, some n.parent, e, fun r => rfl, fun r => rfl⟩
  obtain ⟨sg, so, es, ps1, _⟩ := addr _ hnS
  obtain ⟨dg, dO, ed, pd1, pd2⟩ := addr _ hnD
  rw [es, ed]
  have dS := group_den hn ht (.inl rfl) hfam.1 es ps1 p.src
  have dD := group_den hn ht (.inr rfl) hfam.2 ed pd1 p.dst
  have pS := port_den ht (.inl rfl) p.sport
  have pD := port_den ht (.inr rfl) p.dport
  have pr := groupProtocols_match hc (l := t.protocol) (af := af) (p := p) hcore.names h6
  rcases std_action hcore.act with ⟨rfl, e⟩ | ⟨permit, hpm, e⟩
  · rw [e]
    constructor
    · rintro ⟨toks, hl, a, hpar, _⟩
      simp only [List.mem_flatMap, List.mem_map] at hl
      obtain ⟨sp, _, dp, _, q, _, e⟩ := hl
      cases e
      cases hpar
    · rintro ⟨h, _⟩
      rcases h with ⟨h, _⟩ | ⟨h | h | h, _⟩ <;> exact absurd h (by decide)
  · rw [e]
    constructor
    · rintro ⟨toks, hl, g, hpar, hb, _, m1, m2, m3, m4, m5⟩
      simp only [List.mem_flatMap, List.mem_map] at hl
      obtain ⟨sp, hsp, dp, hdp, q, hq, e⟩ := hl
      cases e
      rw [group_parse permit (protoTok q) sg dg so dO sp dp ps1 pd1 pd2] at hpar
      cases hpar
      subst hb
      exact ⟨hpm, hf, pr.1 ⟨q, hq, m1⟩, dS.1 m2, dD.1 m3, pS.1 ⟨sp, hsp, m4⟩, pD.1 ⟨dp, hdp, m5⟩, .inl rfl, .inl rfl,
        by simp, .inl rfl⟩
    · rintro ⟨hb, _, m1, m2, m3, m4, m5, _⟩
      obtain ⟨q, hq, k1⟩ := pr.2 m1
      obtain ⟨sp, hsp, k4⟩ := pS.2 m4
      obtain ⟨dp, hdp, k5⟩ := pD.2 m5
      refine ⟨_, ?_, ⟨permit, protoTok q, so, sp, dO, dp⟩, group_parse permit (protoTok q) sg dg so dO sp dp ps1 pd1 pd2,
        permits_unique hpm hb, hv, k1, dS.2 m2, dD.2 m3, k4, k5⟩
      simp only [List.mem_flatMap, List.mem_map]
      exact ⟨sp, hsp, dp, hdp, q, hq, rfl⟩

/-- C64 (partial): an object-group list matches exactly the packets of its terms, given the groups it defines, if
the address lists can be named (`Named`), no term excludes addresses or restricts options, icmp or dscp (which
object-group entries drop, refuted below), and the restrictions of C39 hold. -/
theorem C64_entries_partial {c : Cfg} (hc : c ∈ [ios, xr, nx, eos, brocade]) {af : Ver} {ts : List Term} (hn : Named af ts)
    {t : Term} (ht : t ∈ ts) {a : String} (f : Fits c af false t a) (hon : Meant (groupPlatform c) t)
    (hx : t.sourceAddressExclude = [] ∧ t.destinationAddressExclude = [])
    (ho : t.option = [] ∧ t.icmpType = [] ∧ t.icmpCode = [] ∧ t.dscpMatch = []) (hf : FamilyOk af t)
    (h6 : ¬ (af = .v6 ∧ "icmp" ∈ t.protocol)) (hfam : (t.sourceAddress = [] ∨ ∃ n ∈ t.sourceAddress, n.ver = af) ∧
      (t.destinationAddress = [] ∨ ∃ n ∈ t.destinationAddress, n.ver = af))
    {ls : List (Sum (List GTok) String)} (h : renderGroupTerm (groupExtra c) (groupPlatform c) af t = .ok ls)
    {p : Packet} (hv : p.ver = af) (b : Bool) :
    (∃ toks, .inl toks ∈ ls ∧ GLineMatches af (netGroups af ts) (portGroups ts) toks b p) ↔
      Permits a b ∧ Matches t p :=
  group_core hc hn ht (f.core hc) hon hx ho hf h6 hfam h hv b

theorem Named.sub {af : Ver} {ts us : List Term} (h : Named af ts) (hs : ∀ l ∈ lists us, l ∈ lists ts) : Named af us :=
  ⟨fun l hl => h.one l (hs l hl), fun l hl m hm => h.same l (hs l hl) m (hs m hm), fun l hl => h.names l (hs l hl)⟩

theorem prepare_cases {k : Kind} {r : RTerm} {x : Option RTerm} (h : prepare k r = .ok x) :
    ∃ name ports, fixHighPorts {} { r.term with name := name } (afName k) false =
        .ok { r.term with name := name, destinationPort := ports } ∧
      ((x = none ∧ (r.expired = true ∨ (r.term.restrictAddressFamily ≠ none ∧
          r.term.restrictAddressFamily ≠ some (afName k)))) ∨
       (x = some { r with term := { r.term with name := name, destinationPort := ports } } ∧ r.expired = false ∧
        (r.term.restrictAddressFamily = none ∨ r.term.restrictAddressFamily = some (afName k)))) := by
  unfold prepare at h
  obtain ⟨name, _, h⟩ := bind_ok h
  obtain ⟨t', ht', h⟩ := bind_ok h
  obtain ⟨ports, rfl⟩ := restrict_fixHighPorts ht'
  refine ⟨name, ports, ht', ?_⟩
  dsimp only at h
  split at h
  next hfam =>
    simp only [Except.ok.injEq] at h
    refine .inl ⟨h.symm, .inr ?_⟩
    rw [Bool.and_eq_true, bne_iff_ne] at hfam
    exact ⟨(fun e => by rw [e] at hfam; exact absurd hfam.1 (by decide)), hfam.2⟩
  next hfam =>
    split at h
    next he =>
      simp only [Except.ok.injEq] at h
      exact .inl ⟨h.symm, .inl he⟩
    next he =>
      simp only [Except.ok.injEq] at h
      refine .inr ⟨h.symm, by simpa using he, ?_⟩
      cases hra : r.term.restrictAddressFamily with
      | none => exact .inl rfl
      | some y =>
        right
        rw [hra] at hfam
        simp only [Option.isSome_some, Bool.true_and, bne_iff_ne, ne_eq, Classical.not_not] at hfam
        exact hfam

/-- C64 (partial): an object-group list decides about every packet of its family like the policy: the first matching
entry permits (denies) exactly if the first live term that matches the packet, and whose action is not `next`, accepts
(denies, rejects) it. Missing: the terms outside `GFits`, and terms restricted to IPv6 in IPv6 lists (refuted below).
The platform is `cisco` for the subclasses other than `ciscoxr` (see `C64_refuted_platform`). -/
theorem C64_list_partial {c : Cfg} (hc : c ∈ [ios, xr, nx, eos, brocade]) {platform : String}
    (hpl : platform = if c.platform = "ciscoxr" then "ciscoxr" else "cisco") {name : Str} {k : Kind} {af : Ver}
    (hk : (k = .objectGroup ∧ af = .v4) ∨ (k = .objectGroup6 ∧ af = .v6)) {dsmo : Bool} {ts : List RTerm}
    (hn : Named af (ts.map RTerm.term))
    (hf : ∀ r ∈ ts, Live platform r → FamilyOk af r.term → ∃ a, GFits c af r.term a)
    (h6 : af = .v6 → ∀ r ∈ ts, r.term.restrictAddressFamily = none)
    {acl : Acl} (h : renderList c name k dsmo ts = .ok acl) {p : Packet} (hpv : p.ver = af) (permit : Bool) :
    GDecides af acl.groups acl.portGroups acl.groupLines p permit ↔ PolicyDecides platform ts p permit := by
  have hgp : groupPlatform c = platform := hpl.symm
  -- the two kinds
  have key : ∃ kept, listM (prepare k) ts = .ok kept ∧
      acl.groups = netGroups af (((kept.filterMap id).map RTerm.term).filter (hasFamily af)) ∧
      acl.portGroups = portGroups (((kept.filterMap id).map RTerm.term).filter (hasFamily af)) ∧
      concatM (fun r : RTerm => renderGroupTerm (groupExtra c) (groupPlatform c) af r.term)
        ((kept.filterMap id).filter fun r => hasFamily af r.term) = .ok acl.groupLines := by
    unfold renderList at h
    split at h
    · cases h
    · obtain ⟨kept, h1, h⟩ := bind_ok h
      have conv : ∀ {l : List RTerm} {ls}, concatM (renderGroupTerm (groupExtra c) (groupPlatform c) af)
          ((l.map RTerm.term).filter (hasFamily af)) = .ok ls →
          concatM (fun r : RTerm => renderGroupTerm (groupExtra c) (groupPlatform c) af r.term)
            (l.filter fun r => hasFamily af r.term) = .ok ls := by
        intro l
        induction l with
        | nil => intro ls h; exact h
        | cons x l ih =>
          intro ls h
          by_cases hx : hasFamily af x.term = true
          · rw [List.map_cons, List.filter_cons_of_pos hx, concatM] at h
            obtain ⟨a, ha, h⟩ := bind_ok h
            obtain ⟨b, hb, h⟩ := bind_ok h
            cases h
            rw [List.filter_cons_of_pos (p := fun r : RTerm => hasFamily af r.term) hx, concatM, ha, ih hb]
            rfl
          · rw [List.map_cons, List.filter_cons_of_neg hx] at h
            rw [List.filter_cons_of_neg (p := fun r : RTerm => hasFamily af r.term) hx]
            exact ih h
      rcases hk with ⟨rfl, rfl⟩ | ⟨rfl, rfl⟩ <;>
      · dsimp only at h
        obtain ⟨ls, h2, h⟩ := bind_ok h
        cases h
        exact ⟨kept, h1, rfl, rfl, conv h2⟩
  obtain ⟨kept, hkept, hg, hpg, hls⟩ := key
  -- the family conditions
  have hfam : ∀ r ∈ ts, (r.term.restrictAddressFamily = none ∨ r.term.restrictAddressFamily = some (afName k)) ↔
      FamilyOk af r.term := by
    intro r hr
    unfold FamilyOk
    rcases hk with ⟨rfl, rfl⟩ | ⟨rfl, rfl⟩
    · exact Iff.rfl
    · rw [h6 rfl r hr]
      simp
  have hmeans : ∀ r : RTerm, Means r.term p → FamilyOk af r.term := by
    intro r hm
    have : ∀ x : List PortRange, Matches { r.term with destinationPort := x } p → FamilyOk af r.term := by
      intro x hx
      have := hx.2.2.2.2.2.1
      rw [hpv] at this
      exact this
    rcases hm with ⟨_, hm⟩ | ⟨_, hm⟩
    · exact this r.term.destinationPort hm
    · exact this _ hm
  have hact : ∀ r ∈ ts, Live platform r → Means r.term p → ∃ a, r.term.action = [a] ∧
      a ∈ ["accept", "deny", "reject", "next", "reject-with-tcp-rst"] := by
    intro r hr hl hm
    obtain ⟨a, f⟩ := hf r hr hl (hmeans r hm)
    exact ⟨a, f.fits.action, (f.fits.core hc).act⟩
  rw [← policy_first hact]
  unfold GDecides
  rw [hg, hpg]
  refine first_rendered ?_ hkept hls ?_ ?_ ?_
  · rintro r v w ⟨_, _, a, e, h1⟩ ⟨_, _, a', e', h2⟩
    rw [e] at e'
    cases e'
    exact permits_unique h1 h2
  · -- expired or of another family
    rintro r hr hx w ⟨hl, hm, _⟩
    obtain ⟨_, _, _, ⟨_, h | h⟩ | ⟨h, _⟩⟩ := prepare_cases hx
    · rw [hl.1] at h; cases h
    · rcases (hfam r hr).2 (hmeans r hm) with e | e
      · exact h.1 e
      · exact h.2 e
    · cases h
  · -- no address of the family
    rintro r hr r' hx hff w ⟨hl, hm, _⟩
    obtain ⟨n, ports, _, ⟨h, _⟩ | ⟨h, _⟩⟩ := prepare_cases hx
    · cases h
    · cases h
      obtain ⟨a, f⟩ := hf r hr hl (hmeans r hm)
      have hm' : Matches r.term p := by
        rcases hm with ⟨_, hm⟩ | ⟨he, _⟩
        · exact hm
        · rw [f.option] at he; cases he
      rw [matches_fits (f.fits.core hc) hpv] at hm'
      have hadd : ∀ l m : List Net, AddrMatch l m af p.src ∨ AddrMatch l m af p.dst → l = [] ∨ ∃ n ∈ l, n.ver = af := by
        rintro l m (⟨h | ⟨n, hn, hv, _⟩, _⟩ | ⟨h | ⟨n, hn, hv, _⟩, _⟩)
        · exact .inl h
        · exact .inr ⟨n, hn, hv⟩
        · exact .inl h
        · exact .inr ⟨n, hn, hv⟩
      have : hasFamily af r.term = true :=
        hasFamily_iff.2 ⟨hadd _ _ (.inl hm'.2.2.1), hadd _ _ (.inr hm'.2.2.2.1)⟩
      have h' : hasFamily af r.term = false := hff
      rw [this] at h'
      cases h'
  · intro r hr r' hx hmem ls hr' w
    obtain ⟨n, ports, hfix, ⟨h, _⟩ | ⟨h, hexp, hra⟩⟩ := prepare_cases hx
    · cases h
    · cases h
      have hfo := (hfam r hr).1 hra
      have hsub : ∀ l ∈ lists (((kept.filterMap id).map RTerm.term).filter (hasFamily af)), l ∈ lists (ts.map RTerm.term) := by
        intro l hl
        obtain ⟨t, ht, hl⟩ := mem_lists.1 hl
        obtain ⟨ht, _⟩ := List.mem_filter.1 ht
        obtain ⟨r2, hr2, rfl⟩ := List.mem_map.1 ht
        obtain ⟨o, ho, e⟩ := List.mem_filterMap.1 hr2
        cases e
        obtain ⟨r1, hr1, hs⟩ := (listM_mem hkept _).1 ho
        obtain ⟨n', ports', _, ⟨h, _⟩ | ⟨h, _⟩⟩ := prepare_cases hs
        · cases h
        · cases h
          exact mem_lists.2 ⟨r1.term, List.mem_map.2 ⟨r1, hr1, rfl⟩, hl⟩
      by_cases hl : Live platform r
      · obtain ⟨a, f⟩ := hf r hr hl hfo
        have hports : ports = r.term.destinationPort := by
          have hne : ¬ HasEstablished { r.term with name := n } := by
            rintro ⟨o, ho, _⟩
            have ho' : o ∈ r.term.option := ho
            rw [f.option] at ho'; cases ho'
          have hsup : afName k ∈ ({} : HighPorts).supportedAf := by
            rcases hk with ⟨rfl, _⟩ | ⟨rfl, _⟩ <;> decide
          rw [C32_unchanged (c := {}) false hsup (by intro l h; cases h) hne] at hfix
          have := congrArg (fun x => x.map Term.destinationPort) hfix
          simp only [Except.map, Except.ok.injEq] at this
          exact this.symm
        subst hports
        have hren : renderGroupTerm (groupExtra c) (groupPlatform c) af r.term = .ok ls := hr'
        have hmem' : { r.term with name := n } ∈ ((kept.filterMap id).map RTerm.term).filter (hasFamily af) := by
          obtain ⟨h1, h2⟩ := List.mem_filter.1 hmem
          exact List.mem_filter.2 ⟨List.mem_map.2 ⟨_, h1, rfl⟩, h2⟩
        have hf2 : Core c af false { r.term with name := n } a :=
          (f.fits.core hc).withPorts n r.term.destinationPort fun h => (f.fits.core hc).ports (.inr h)
        have hex := group_core hc (hn.sub hsub) hmem' hf2 (hgp ▸ ⟨hl.2.1, hl.2.2⟩)
          ⟨f.srcExclude, f.dstExclude⟩ ⟨f.option, f.icmpType, f.icmpCode, f.dscp⟩ hfo f.icmp6
          (hasFamily_iff.1 (List.mem_filter.1 hmem').2) hr' hpv w
        have hmm : Matches { r.term with name := n } p ↔ Means r.term p := by
          have : Matches { r.term with name := n } p ↔ Matches r.term p :=
            matches_ports (t := r.term) (name := n) (x := r.term.destinationPort) (y := r.term.destinationPort) Iff.rfl
          rw [this]
          unfold Means
          simp [f.option]
        rw [hmm] at hex
        constructor
        · rintro ⟨l, hl', toks, rfl, hm⟩
          obtain ⟨h1, h2⟩ := hex.1 ⟨toks, hl', hm⟩
          exact ⟨hl, h2, a, f.fits.action, h1⟩
        · rintro ⟨_, h2, a', h3, h4⟩
          rw [f.fits.action] at h3
          cases h3
          obtain ⟨toks, h5, h6⟩ := hex.2 ⟨h4, h2⟩
          exact ⟨_, h5, toks, rfl, h6⟩
      · refine iff_of_false ?_ (fun h => hl h.1)
        have hna : onPlatform (groupPlatform c) { r.term with name := n, destinationPort := ports } = false := by
          rw [Bool.eq_false_iff]
          intro hon
          obtain ⟨a1, a2⟩ := groupOn_iff.1 hon
          rw [hgp] at a1 a2
          exact hl ⟨hexp, a1, a2⟩
        have hr'' : renderGroupTerm (groupExtra c) (groupPlatform c) af
            { r.term with name := n, destinationPort := ports } = .ok ls := hr'
        unfold renderGroupTerm at hr''
        obtain ⟨_, _, hr''⟩ := bind_ok hr''
        rw [hna] at hr''
        cases hr''
        rintro ⟨l, hl', _⟩
        cases hl'

/-- A list of two named networks. -/
def exGroups : List Term :=
  [{ name := "web".toList, action := ["accept"], protocol := ["tcp"], destinationPort := [(80, 80), (8080, 8088)],
     sourceAddress := [{ ip4 10 0 0 0 8 with parent := "CORP" }],
     destinationAddress := [{ ip4 192 168 0 0 24 with parent := "WEB" }, { ip4 192 168 2 0 24 with parent := "WEB" }] },
   { name := "rest".toList, action := ["deny"], sourceAddress := [{ ip4 10 0 0 0 8 with parent := "CORP" }] }]

example : Named .v4 exGroups ∧ (∀ c ∈ [ios, xr], ∀ t ∈ exGroups, (∃ a, Fits c .v4 false t a) ∧ Meant (groupPlatform c) t ∧
    FamilyOk .v4 t ∧ (t.sourceAddress = [] ∨ ∃ n ∈ t.sourceAddress, n.ver = .v4) ∧
    (t.destinationAddress = [] ∨ ∃ n ∈ t.destinationAddress, n.ver = .v4)) := by
  refine ⟨⟨by decide +kernel, ?_, by decide +kernel⟩, ?_⟩
  · have : ∀ l ∈ lists exGroups, ∀ m ∈ lists exGroups, ∀ a ∈ l, ∀ b ∈ m, a.parent = b.parent → l = m := by decide +kernel
    intro l hl m hm a ha b hb e x
    rw [this l hl m hm a ha b hb e]
  · intro c hc t ht
    simp only [List.mem_cons, List.not_mem_nil, or_false] at hc
    simp only [exGroups, List.mem_cons, List.not_mem_nil, or_false] at ht
    rcases hc with rfl | rfl <;> rcases ht with rfl | rfl
    · exact ⟨⟨"accept", by constructor <;> decide +kernel⟩, by unfold Meant; decide, .inl rfl, by decide, by decide⟩
    · exact ⟨⟨"deny", by constructor <;> decide +kernel⟩, by unfold Meant; decide, .inl rfl, by decide, by decide⟩
    · exact ⟨⟨"accept", by constructor <;> decide +kernel⟩, by unfold Meant; decide, .inl rfl, by decide, by decide⟩
    · exact ⟨⟨"deny", by constructor <;> decide +kernel⟩, by unfold Meant; decide, .inl rfl, by decide, by decide⟩

/-- The list is rendered, its terms fit, and it decides about packets. -/
example : Named .v4 ((exGroups.map fun t => ({ term := t } : RTerm)).map RTerm.term) ∧
    (∀ r ∈ exGroups.map fun t => ({ term := t } : RTerm), ∃ a, GFits nx .v4 r.term a) ∧
    ∃ acl, renderList nx "f".toList .objectGroup false (exGroups.map fun t => ({ term := t } : RTerm)) = .ok acl ∧
      acl.groupLines.length = 3 ∧ acl.groups.length = 2 := by
  refine ⟨⟨by decide +kernel, ?_, by decide +kernel⟩, ?_, ?_⟩
  · have : ∀ l ∈ lists ((exGroups.map fun t => ({ term := t } : RTerm)).map RTerm.term),
        ∀ m ∈ lists ((exGroups.map fun t => ({ term := t } : RTerm)).map RTerm.term),
        ∀ a ∈ l, ∀ b ∈ m, a.parent = b.parent → l = m := by decide +kernel
    intro l hl m hm a ha b hb e x
    rw [this l hl m hm a ha b hb e]
  · intro r hr
    simp only [exGroups, List.map_cons, List.map_nil, List.mem_cons, List.not_mem_nil, or_false] at hr
    rcases hr with rfl | rfl
    · exact ⟨"accept", by constructor <;> first | decide +kernel | (constructor <;> decide +kernel)⟩
    · exact ⟨"deny", by constructor <;> first | decide +kernel | (constructor <;> decide +kernel)⟩
  · exact ⟨_, rfl, by decide +kernel⟩

/-- C64 is false for the platform itself on `arista` and `cisconx`: a term for `arista` is missing in the object-group
lists of `arista`. -/
theorem C64_refuted_platform : ∃ t : Term, Accepted eos t ∧ t.platform = ["arista"] ∧
    ∃ acl, renderList eos "f".toList .objectGroup false [{ term := t }] = .ok acl ∧ acl.groupLines = [] :=
  ⟨{ name := "t".toList, action := ["accept"], protocol := ["tcp"], platform := ["arista"] }, by decide +kernel, rfl,
   _, rfl, by decide +kernel⟩

/-- C64 is false in IPv6 lists for terms restricted to IPv6: they are left out (and those restricted to IPv4 are
rendered). -/
theorem C64_refuted_inet6 : ∃ t u : Term, Accepted ios t ∧ Accepted ios u ∧ t.restrictAddressFamily = some "inet6" ∧
    u.restrictAddressFamily = some "inet" ∧
    ∃ a b, renderList ios "f".toList .objectGroup6 false [{ term := t }] = .ok a ∧ a.groupLines = [] ∧
      renderList ios "f".toList .objectGroup6 false [{ term := u }] = .ok b ∧ b.groupLines ≠ [] :=
  ⟨{ name := "t".toList, action := ["accept"], protocol := ["tcp"], restrictAddressFamily := some "inet6" },
   { name := "u".toList, action := ["accept"], protocol := ["tcp"], restrictAddressFamily := some "inet" },
   by decide +kernel, by decide +kernel, rfl, rfl, _, _, rfl, by decide +kernel, rfl, by decide +kernel⟩

/-- C64 is false with options or icmp types: object-group entries drop them. -/
theorem C64_refuted_options : ∃ (t u : Term), Accepted ios t ∧ Accepted ios u ∧ t.option = ["tcp-established"] ∧
    renderGroupTerm [] "cisco" .v4 t = .ok [.inl [.tok (.w "permit"), .tok (.w "tcp"), .tok (.w "any"), .tok (.w "any")]] ∧
    u.icmpType = ["echo-request"] ∧
    renderGroupTerm [] "cisco" .v4 u = .ok [.inl [.tok (.w "permit"), .tok (.w "icmp"), .tok (.w "any"), .tok (.w "any")]] :=
  ⟨{ name := "t".toList, action := ["accept"], protocol := ["tcp"], option := ["tcp-established"] },
   { name := "u".toList, action := ["accept"], protocol := ["icmp"], icmpType := ["echo-request"] },
   by decide +kernel, by decide +kernel, rfl, by decide +kernel, rfl, by decide +kernel⟩

end Verif.Props
