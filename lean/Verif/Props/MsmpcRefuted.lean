import Verif.Props.MsmpcOut
import Verif.Props.VersaRefuted
import Verif.Props.AristaTpRefuted

/-!
Concrete cases for the theorems about capirca/lib/junipermsmpc.py, and the policies for which C157, C158, C160 and C161 fail.
-/

namespace Verif.Props
open Verif Verif.Spec Policy Aclgenerator Nacaddr PyStr
open Verif.Srx (STerm)
open Verif.Msmpc (Rule Out App AppDef Pfx)
open Verif.Spec.Msmpc (AddrHits PrefixHits ProtoIs DefHits SetHits RuleHits Hits Does FamilyIs DirectionIs Decides Split Carries SameNet
  Void Spared Defined Fine TypesOk Seen nets ruleNames)

/-! ### evaluation on concrete packets -/

instance msmpcAddrDec (inc exc : List Pfx) (v : Ver) (x : Nat) : Decidable (AddrHits inc exc v x) := by
  unfold AddrHits
  infer_instance

instance msmpcPrefixDec (inc exc : List String) (f : String → Bool) : Decidable (PrefixHits inc exc f) := by
  unfold PrefixHits
  infer_instance

instance msmpcProtoDec (p : Packet) : DecidablePred (ProtoIs p) := fun s => by
  unfold ProtoIs
  infer_instance

instance msmpcDefDec (p : Packet) (d : AppDef) : Decidable (DefHits p d) :=
  decidable_of_iff (Flat.IfSet d.proto (ProtoIs p) ∧ Flat.IfSet d.sport (fun r => p.proto ∈ Flat.portProtos ∧ r.1 ≤ p.sport ∧ p.sport ≤ r.2) ∧
      Flat.IfSet d.dport (fun r => p.proto ∈ Flat.portProtos ∧ r.1 ≤ p.dport ∧ p.dport ≤ r.2) ∧
      Flat.IfSet d.type (fun k => (p.proto = "icmp" ∧ (p.icmpType, k) ∈ icmpV4) ∨ (p.proto = "icmpv6" ∧ (p.icmpType, k) ∈ icmpV6)) ∧
      (d.codes = [] ∨ p.icmpCode ∈ d.codes))
    ⟨fun h => ⟨h.1, h.2.1, h.2.2.1, h.2.2.2.1, h.2.2.2.2⟩, fun h => ⟨h.1, h.2, h.3, h.4, h.5⟩⟩

instance msmpcSetDec (o : Msmpc.Group) (p : Packet) : DecidablePred (SetHits o p) := fun s =>
  decidable_of_iff (∃ e ∈ o.sets, e.1 = s ∧ ∃ m ∈ e.2, ∃ d ∈ o.apps, d.name = m ∧ DefHits p d) (by
    unfold SetHits
    constructor
    · rintro ⟨⟨_, ms⟩, h1, rfl, h2⟩
      exact ⟨ms, h1, h2⟩
    · rintro ⟨ms, h1, h2⟩
      exact ⟨_, h1, rfl, h2⟩)

instance msmpcRuleDec (o : Msmpc.Group) (p : Packet) (r : Rule) : Decidable (RuleHits o p r) :=
  decidable_of_iff (r.inactive = false ∧ AddrHits r.src r.srcExcept p.ver p.src ∧ AddrHits r.dst r.dstExcept p.ver p.dst ∧
      PrefixHits r.srcPrefix r.srcPrefixExcept p.inSrcPrefix ∧ PrefixHits r.dstPrefix r.dstPrefixExcept p.inDstPrefix ∧
      Flat.IfSet r.appSet (SetHits o p))
    ⟨fun h => ⟨h.1, h.2.1, h.2.2.1, h.2.2.2.1, h.2.2.2.2.1, h.2.2.2.2.2⟩, fun h => ⟨h.1, h.2, h.3, h.4, h.5, h.6⟩⟩

/-- What is decided by what is printed; for concrete cases. -/
def msmpcDoes (o : Msmpc.Group) (p : Packet) : Out → Option String
  | .verbatim _ => none
  | .term r =>
    if RuleHits o p r then
      match r.actions with
      | [w] => Spec.Msmpc.words.lookup w
      | _ => none
    else none

theorem msmpcDoes_iff {o : Msmpc.Group} {p : Packet} {x : Out} {v : String} : Hits o p x v ↔ msmpcDoes o p x = some v := by
  have hn : ∀ e ∈ Spec.Msmpc.words, Spec.Msmpc.words.lookup e.1 = some e.2 := by decide
  constructor
  · rintro ⟨r, rfl, hr, w, hw, h⟩
    unfold msmpcDoes
    dsimp only
    rw [if_pos hr, hw]
    exact hn _ h
  · intro h
    unfold msmpcDoes at h
    split at h
    · cases h
    next r =>
      split at h
      next hr =>
        split at h
        next w hw => exact ⟨r, rfl, hr, w, hw, Cisco.mem_of_lookup' h⟩
        · cases h
      · cases h

instance msmpcKeptDec (g : STerm) : Decidable (Spec.Msmpc.Kept g) := by
  unfold Spec.Msmpc.Kept
  infer_instance

instance msmpcLiveDec (g : STerm) : Decidable (Spec.Msmpc.Live g) := by
  unfold Spec.Msmpc.Live
  infer_instance

instance msmpcFamilyDec (rest : List String) (v : Ver) : Decidable (FamilyIs rest v) := by
  unfold FamilyIs
  infer_instance

/-- What a term wants; for concrete cases. -/
def msmpcWant (p : Packet) (g : STerm) : Option String :=
  if Spec.Msmpc.Live g ∧ Matches g.term p then
    match g.term.action with
    | [w] => if w ∈ ["accept", "deny", "reject"] then some w else none
    | _ => none
  else none

theorem msmpcWant_iff {p : Packet} {g : STerm} {w : String} : Spec.Msmpc.Wants p g w ↔ msmpcWant p g = some w := by
  unfold msmpcWant Spec.Msmpc.Wants
  constructor
  · rintro ⟨h1, h2, h3, h4⟩
    rw [if_pos ⟨h1, h2⟩, h3]
    dsimp only
    rw [if_pos h4]
  · intro h
    split at h
    next h1 =>
      split at h
      next u hu =>
        split at h
        next h2 => cases h; exact ⟨h1.1, h1.2, hu, h2⟩
        · cases h
      · cases h
    · cases h

theorem first_or_deny {α : Type} {hit : α → String → Prop} {f : α → Option String} (hf : ∀ x a, hit x a ↔ f x = some a) {l : List α}
    {v : String} : (First hit l v ∨ ((∀ x ∈ l, ∀ w, ¬ hit x w) ∧ v = "deny")) ↔ (l.findSome? f).getD "deny" = v := by
  rw [hf_findSome (w := f) hf]
  cases h : l.findSome? f with
  | some a =>
    simp only [Option.some.injEq, Option.getD_some]
    constructor
    · rintro (h1 | ⟨h1, _⟩)
      · exact h1
      · obtain ⟨x, hx, e⟩ := List.exists_of_findSome?_eq_some h
        exact absurd ((hf x a).2 e) (h1 x hx a)
    · exact .inl
  | none =>
    simp only [Option.getD_none]
    constructor
    · rintro (h1 | ⟨_, h1⟩)
      · cases h1
      · exact h1.symm
    · intro h1
      refine .inr ⟨fun x hx w hw => ?_, h1.symm⟩
      have := List.findSome?_eq_none_iff.1 h x hx
      rw [(hf x w).1 hw] at this
      cases this

/-- The tool takes filters, of which one is that of the options and terms. About some packet of its family the filter decides `want`, and
its group does `got`. -/
def MsmpcSays (options : List String) (gs : List STerm) (want got : String) : Prop :=
  ∃ (p : Packet) (o : Msmpc.Group),
    (∀ g ∈ gs, initCheck Msmpc.tables [([Msmpc.tables.platform], [kterm g.term])] = .ok () ∧ sanityCheck g.term = .ok ()) ∧
    Coherent p ∧ FamilyIs options.tail p.ver ∧ Msmpc.output [{ options := options, terms := gs }] = .ok [o] ∧
    (∀ w, Decides { options := options, terms := gs } p w ↔ want = w) ∧ ∀ w, Does o p w ↔ got = w

/-- The decidable part. -/
def msmpcCheck (options : List String) (gs : List STerm) (p : Packet) (want got : String) : Bool :=
  decide (∀ g ∈ gs, initCheck Msmpc.tables [([Msmpc.tables.platform], [kterm g.term])] = .ok () ∧ sanityCheck g.term = .ok ()) &&
  decide (Coherent p) && decide (FamilyIs options.tail p.ver) && (gs.findSome? (msmpcWant p)).getD "deny" == want &&
  match Msmpc.output [{ options := options, terms := gs }] with
  | .ok [o] => (o.terms.findSome? (msmpcDoes o p)).getD "deny" == got
  | _ => false

theorem msmpc_says {options : List String} {gs : List STerm} {want got : String} (p : Packet)
    (h : msmpcCheck options gs p want got = true) : MsmpcSays options gs want got := by
  unfold msmpcCheck at h
  split at h
  next o ho =>
    simp only [Bool.and_eq_true, decide_eq_true_eq, beq_iff_eq] at h
    obtain ⟨⟨⟨⟨a1, a2⟩, a3⟩, a4⟩, a5⟩ := h
    refine ⟨p, o, a1, a2, a3, ho, fun w => ?_, fun w => ?_⟩
    · unfold Decides
      rw [first_or_deny (f := msmpcWant p) (fun x a => msmpcWant_iff), a4]
    · unfold Does
      rw [first_or_deny (f := msmpcDoes o p) (fun x a => msmpcDoes_iff), a5]
  · simp at h

/-! ### a case -/

/-- A filter for packets of both versions. -/
def msmpcFilter : Msmpc.Filter where
  options := ["edge", "ingress", "noverbose"]
  terms :=
    [{ term := { name := "gone".toList, action := ["accept"] }, expired := true },
     { term := { name := "web".toList, action := ["accept"], protocol := ["tcp", "udp"], destinationPort := [(80, 80), (443, 443)],
                 sourceAddress := [ip4 10 0 0 0 8, ip6 32 16], sourceAddressExclude := [ip4 10 1 0 0 16], logging := ["true"] } },
     { term := { name := "wide".toList, action := ["deny"], sourceAddress := [ip6 32 12], destinationPrefix := ["HOSTS"],
                 destinationPrefixExcept := ["BAD"] } },
     { term := { name := "ping".toList, action := ["reject"], protocol := ["icmp"], icmpType := ["unreachable"], icmpCode := [3],
                 destinationAddress := [ip4 192 0 2 0 24, ip6 33 16] }, timeout := some 30 },
     { term := { name := "tunnel".toList, action := ["accept"], protocol := ["gre", "vrrp", "tcp"] } },
     { term := { name := "off".toList, action := ["accept"], option := ["inactive"] } },
     { term := { name := "replies".toList, action := ["accept"], option := ["established"] } },
     { term := { name := "last".toList, action := ["reject"] } }]

/-- All of it, next to a filter for another platform and one with a term. -/
def msmpcPolicy : List Msmpc.Filter :=
  [{ here := false }, msmpcFilter, { options := ["core", "inet"], terms := [{ term := { name := "all".toList, action := ["accept"] } }] }]

theorem msmpcFilter_fits (p : Packet) : ∀ g ∈ msmpcFilter.terms, Spec.Msmpc.Live g → MsmpcFits p g := by
  intro g hg hl
  have key : ∀ g ∈ msmpcFilter.terms, Spec.Msmpc.Live g →
      (initCheck Msmpc.tables [([Msmpc.tables.platform], [kterm g.term])] = .ok () ∧ sanityCheck g.term = .ok ()) ∧
      (∀ n ∈ g.term.sourceAddress ++ g.term.sourceAddressExclude, WF n) ∧
      (∀ n ∈ g.term.destinationAddress ++ g.term.destinationAddressExclude, WF n) ∧ g.term.option = [] ∧
      (∃ u ∈ ["accept", "deny", "reject"], g.term.action = [u]) ∧ (∀ s ∈ g.term.protocol, s ∈ iana.map Prod.fst) ∧
      ∀ n ∈ g.term.sourceAddress, ∀ e ∈ g.term.sourceAddressExclude, n.subnetOf e = false := by
    decide +kernel
  obtain ⟨⟨k1, k0⟩, k2, k3, k4, k5, k6, k7⟩ := key g hg hl
  have k8 := nested_of (fun n hn => k2 n (List.mem_append_left _ hn)) (fun n hn => k2 n (List.mem_append_right _ hn)) k7
  simp only [msmpcFilter, List.mem_cons, List.not_mem_nil, or_false] at hg
  rcases hg with rfl | rfl | rfl | rfl | rfl | rfl | rfl | rfl
  all_goals
    exact ⟨k1, k0, ⟨rfl, rfl, by decide, by decide⟩, .inl rfl, k4, k5, k2, k3, by simp, by simp, k8, by simp, by simp, by simp, k6, by simp,
      by simp⟩

/-- The hypotheses of C157_partial hold for this policy. -/
example (p : Packet) (coh : Coherent p) (hd : p.proto = "tcp" ∨ p.proto = "udp" → 1 ≤ p.dport ∧ p.dport ≤ 65535) (gs : List Msmpc.Group)
    (h : Msmpc.output msmpcPolicy = .ok gs) (o : Msmpc.Group) (ho : gs[0]? = some o) (w : String) : Does o p w ↔ Decides msmpcFilter p w :=
  C157_partial h (by decide) (i := 0) rfl ho (.inr (.inr (by decide))) coh hd (by decide) (msmpcFilter_fits p) w

/-- Those of C158_partial, C159_rules and C161_partial do, too. -/
example (gs : List Msmpc.Group) (h : Msmpc.output msmpcPolicy = .ok gs) (o : Msmpc.Group) (ho : gs[0]? = some o) :
    gs.length = 2 ∧ (∃ rest bs, Spec.Msmpc.Rendered msmpcFilter o rest bs) ∧ (ruleNames o).Nodup ∧
    ∀ r s, .term r ∈ o.terms → r.appSet = some s → Defined o s := by
  have wf : ∀ g ∈ msmpcFilter.terms, Spec.Msmpc.Kept g → NetsOk g.term := by
    unfold NetsOk
    decide +kernel
  refine ⟨(C159_rules h).1, (C159_rules h).2 0 _ o rfl ho wf, C161_partial h (i := 0) rfl ho wf ?_, fun r s hr hs => ?_⟩
  · decide +kernel
  · exact C158_partial h (by decide) (i := 0) rfl ho (by decide) hr hs

/-- The policy is accepted, as C160_enough says. -/
theorem msmpc_accepted : ∃ gs, Msmpc.output msmpcPolicy = .ok gs := by
  apply C160_enough
  intro f hf hh
  have fine : ∀ rest ∈ [["ingress", "noverbose"], ["inet"]], Fine rest := by
    intro rest hr
    have key : ∀ rest ∈ [["ingress", "noverbose"], ["inet"]],
      (∀ o ∈ rest, o ∈ ["inet", "inet6", "mixed", "ingress", "egress", "", "noverbose"]) ∧
      (rest.filter fun o => o ∈ ["inet", "inet6", "mixed"]).length ≤ 1 ∧ (rest.filter fun o => o ∈ ["ingress", "egress", ""]).length ≤ 1 ∧
      (rest.filter fun o => o = "noverbose").length ≤ 1 := by decide
    obtain ⟨a, b, c, d⟩ := key rest hr
    exact ⟨a, b, c, d⟩
  have k12 : ∀ f ∈ msmpcPolicy, f.here = true → f.options.head?.isSome = true ∧ f.options.tail ∈ [["ingress", "noverbose"], ["inet"]] := by
    decide +kernel
  have k3 : ∀ f ∈ msmpcPolicy, ((f.terms.filter fun g => decide (Seen g)).map fun g => g.term.name).Nodup := by decide +kernel
  have k4 : ∀ f ∈ msmpcPolicy, ∀ g ∈ f.terms, (g.term.icmpType = [] ∨ (g.term.protocol = ["icmp"] ∧
      ∀ s ∈ g.term.icmpType, s ∈ icmpV4.map Prod.fst)) ∧ g.term.name.length ≤ 27 := by decide +kernel
  have k5 : ∀ f ∈ msmpcPolicy, ∀ g ∈ f.terms, ∀ a ∈ g.term.action, a ∈ ["accept", "deny", "reject"] := by decide +kernel
  obtain ⟨k1, k2⟩ := k12 f hf hh
  obtain ⟨name, hn⟩ := Option.isSome_iff_exists.1 k1
  refine ⟨⟨⟨name, f.options.tail, ?_, fine _ k2⟩, k3 f hf, fun g hg s hx => ?_⟩, fun g hg _ _ => (k4 f hf g hg).2, fun g hg _ _ => k5 f hf g hg⟩
  · cases ho : f.options with
    | nil => rw [ho] at hn; cases hn
    | cons a l => rw [ho] at hn; cases hn; rfl
  · rcases (k4 f hf g hg).1 with h | h
    · exact .inl h
    · exact .inr (.inl h)

/-- What is in it. -/
example : ∃ o o', Msmpc.output msmpcPolicy = .ok [o, o'] ∧ o.direction = "input" ∧ o'.direction = "input-output" ∧
    ruleNames o = ["web-inet".toList, "web-inet6".toList, "wide".toList, "ping-inet".toList, "tunnel".toList, "off".toList, "last".toList] ∧
    o.apps.length = 8 ∧ o.sets.length = 3 := by
  have : (match Msmpc.output msmpcPolicy with
    | .ok [o, o'] => decide (o.direction = "input" ∧ o'.direction = "input-output" ∧
        ruleNames o = ["web-inet".toList, "web-inet6".toList, "wide".toList, "ping-inet".toList, "tunnel".toList, "off".toList, "last".toList] ∧
        o.apps.length = 8 ∧ o.sets.length = 3)
    | _ => false) = true := by decide +kernel
  split at this
  next o o' ho => exact ⟨o, o', ho, of_decide_eq_true this⟩
  · cases this

example : MsmpcSays msmpcFilter.options msmpcFilter.terms "accept" "accept" :=
  msmpc_says { proto := "tcp", src := 10 * 2 ^ 24 + 5, dst := 1, sport := 1024, dport := 80 } (by decide +kernel)

example : MsmpcSays msmpcFilter.options msmpcFilter.terms "accept" "accept" :=
  msmpc_says { ver := .v6, proto := "vrrp", src := 5, dst := 1 } (by decide +kernel)

example : MsmpcSays msmpcFilter.options msmpcFilter.terms "reject" "reject" :=
  msmpc_says { proto := "sctp", src := 10 * 2 ^ 24 + 2 ^ 16 + 5, dst := 1, sport := 1024, dport := 80 } (by decide +kernel)

/-! ### policies that are not done -/

/-- A term to start from. -/
def msmpcTerm (name : String) (t : Term) : STerm := { term := { t with name := name.toList } }

/-- C157 is false for terms with exclusions only: without addresses to be exceptions from they are dropped, so that the rule matches what
is excluded. -/
theorem C157_refuted_exclude : MsmpcSays ["f"] [msmpcTerm "t" { action := ["accept"], sourceAddressExclude := [ip4 10 0 0 0 8] }]
    "deny" "accept" :=
  msmpc_says { proto := "gre", src := 10 * 2 ^ 24 + 5, dst := 1 } (by decide +kernel)

/-- C157 is false for addresses inside of what is excluded: the more specific ones win. -/
theorem C157_refuted_nested : MsmpcSays ["f"]
    [msmpcTerm "t" { action := ["accept"], sourceAddress := [ip4 10 1 0 0 16], sourceAddressExclude := [ip4 10 0 0 0 8] }] "deny" "accept" :=
  msmpc_says { proto := "gre", src := 10 * 2 ^ 24 + 2 ^ 16 + 5, dst := 1 } (by decide +kernel)

/-- C157 is false for options: they have no effect. -/
theorem C157_refuted_option : MsmpcSays ["f"] [msmpcTerm "t" { action := ["accept"], protocol := ["tcp"], option := ["is-fragment"] }]
    "deny" "accept" :=
  msmpc_says { proto := "tcp", src := 5, dst := 1, sport := 1024, dport := 80 } (by decide +kernel)

/-- C157 is false for ports of SCTP: they have no effect. -/
theorem C157_refuted_sctp : MsmpcSays ["f"] [msmpcTerm "t" { action := ["accept"], protocol := ["sctp"], destinationPort := [(80, 80)] }]
    "deny" "accept" :=
  msmpc_says { proto := "sctp", src := 5, dst := 1, sport := 1024, dport := 81 } (by decide +kernel)

/-- C157 is false for port 0: without ports in the term, only those from 1 match. -/
theorem C157_refuted_zero : MsmpcSays ["f"] [msmpcTerm "t" { action := ["accept"], protocol := ["tcp"] }] "accept" "deny" :=
  msmpc_says { proto := "tcp", src := 5, dst := 1, sport := 1024, dport := 0 } (by decide +kernel)

/-- C157 is false for ICMP next to another protocol: in a filter for IPv6 the whole term is left out. -/
theorem C157_refuted_icmp : MsmpcSays ["f", "inet6"] [msmpcTerm "t" { action := ["accept"], protocol := ["icmp", "tcp"] }] "accept" "deny" :=
  msmpc_says { ver := .v6, proto := "tcp", src := 5, dst := 1, sport := 1024, dport := 80 } (by decide +kernel)

/-- C157 is false for `restrict-address-family`, which has no effect. -/
theorem C157_refuted_restrict : MsmpcSays ["f"] [msmpcTerm "t" { action := ["accept"], restrictAddressFamily := some "inet6" }]
    "deny" "accept" :=
  msmpc_says { proto := "gre", src := 5, dst := 1 } (by decide +kernel)

/-- Two filters of one name. -/
def msmpcTwice : List Msmpc.Filter :=
  [{ options := ["f", "ingress"], terms := [msmpcTerm "t" { action := ["accept"], protocol := ["tcp"] }] },
   { options := ["f", "egress"], terms := [msmpcTerm "u" { action := ["accept"], protocol := ["udp"] }] }]

/-- C158 is false for two filters of one name: both groups have the applications of the last one. -/
theorem C158_refuted_names : ∃ o o' r s, Msmpc.output msmpcTwice = .ok [o, o'] ∧ .term r ∈ o.terms ∧ r.appSet = some s ∧ ¬ Defined o s := by
  have : (match Msmpc.output msmpcTwice with
    | .ok [o, _] => match o.terms with
      | [.term r] => decide (r.appSet = some "ft-app".toList ∧ "ft-app".toList ∉ o.sets.map Prod.fst)
      | _ => false
    | _ => false) = true := by decide +kernel
  split at this
  next o o' ho =>
    split at this
    next r hr =>
      obtain ⟨h1, h2⟩ := of_decide_eq_true this
      refine ⟨o, o', r, _, ho, by rw [hr]; exact List.mem_singleton.2 rfl, h1, ?_⟩
      rintro ⟨ms, hm, _⟩
      have : ("ft-app".toList, ms) ∈ o.sets.filter fun e => e.1 = "ft-app".toList := by rw [hm]; exact List.mem_singleton.2 rfl
      exact h2 (List.mem_map.2 ⟨_, (List.mem_filter.1 this).1, rfl⟩)
    · cases this
  · cases this

/-- C158 is false for ports without protocols, if the term has them: the set is empty. -/
theorem C158_refuted_ports : ∃ o r s, Msmpc.output [{ options := ["f"], terms := [msmpcTerm "t" { action := ["accept"], destinationPort := [(80, 80)] }] }] =
    .ok [o] ∧ .term r ∈ o.terms ∧ r.appSet = some s ∧ (s, []) ∈ o.sets := by
  have : (match Msmpc.output [{ options := ["f"], terms := [msmpcTerm "t" { action := ["accept"], destinationPort := [(80, 80)] }] }] with
    | .ok [o] => match o.terms with
      | [.term r] => decide (r.appSet = some "ft-app".toList ∧ ("ft-app".toList, []) ∈ o.sets)
      | _ => false
    | _ => false) = true := by decide +kernel
  split at this
  next o ho =>
    split at this
    next r hr =>
      obtain ⟨h1, h2⟩ := of_decide_eq_true this
      exact ⟨o, r, _, ho, by rw [hr]; exact List.mem_singleton.2 rfl, h1, h2⟩
    · cases this
  · cases this

/-- Two filters whose names have the same 27 characters first. -/
def msmpcLong : List Msmpc.Filter :=
  [{ options := ["abcdefghijklmnopqrstuvwxyz0-in"], terms := [msmpcTerm "t" { action := ["accept"], protocol := ["tcp"] }] },
   { options := ["abcdefghijklmnopqrstuvwxyz0-out"], terms := [msmpcTerm "t" { action := ["accept"], protocol := ["udp"] }] }]

/-- Across groups the names of applications are not distinct: those of two filters may be the same for different protocols. -/
theorem C158_refuted_groups : ∃ o o' d d', Msmpc.output msmpcLong = .ok [o, o'] ∧ d ∈ o.apps ∧ d' ∈ o'.apps ∧ d.name = d'.name ∧
    d.proto = some "tcp" ∧ d'.proto = some "udp" := by
  have : (match Msmpc.output msmpcLong with
    | .ok [o, o'] => match o.apps, o'.apps with
      | [d], [d'] => decide (d.name = d'.name ∧ d.proto = some "tcp" ∧ d'.proto = some "udp")
      | _, _ => false
    | _ => false) = true := by decide +kernel
  split at this
  next o o' ho =>
    split at this
    next d d' hd hd' =>
      obtain ⟨h1, h2, h3⟩ := of_decide_eq_true this
      exact ⟨o, o', d, d', ho, by rw [hd]; exact List.mem_singleton.2 rfl, by rw [hd']; exact List.mem_singleton.2 rfl, h1, h2, h3⟩
    · cases this
  · cases this

/-- Keywords that are accepted do not suffice: two of the five actions raise an error that the tool does not expect. -/
theorem C160_refuted_action : ∀ a ∈ ["next", "reject-with-tcp-rst"],
    initCheck Msmpc.tables [([Msmpc.tables.platform], [kterm (msmpcTerm "t" { action := [a] }).term])] = .ok () ∧
    Msmpc.output [{ options := ["f"], terms := [msmpcTerm "t" { action := [a] }] }] = .error .typeError := by decide +kernel

/-- Distinct names do not suffice if they are long: those of two terms that end in the same 27 characters are confused. -/
theorem C160_refuted_long : Msmpc.output [{ options := ["f"], terms :=
    [msmpcTerm "1abcdefghijklmnopqrstuvwxyz0" { action := ["accept"], protocol := ["tcp"] },
     msmpcTerm "2abcdefghijklmnopqrstuvwxyz0" { action := ["accept"], protocol := ["udp"] }] }] =
    .error (.raised "ConflictingApplicationSetsError") := by decide +kernel

/-- C161 is false for terms that are called like the parts of others. -/
theorem C161_refuted : ∃ o, Msmpc.output [{ options := ["f"], terms :=
    [msmpcTerm "a" { action := ["accept"], sourceAddress := [ip4 10 0 0 0 8, ip6 32 16] }, msmpcTerm "a-inet" { action := ["deny"] }] }] =
    .ok [o] ∧ ¬ (ruleNames o).Nodup := by
  have : (match Msmpc.output [{ options := ["f"], terms :=
      [msmpcTerm "a" { action := ["accept"], sourceAddress := [ip4 10 0 0 0 8, ip6 32 16] }, msmpcTerm "a-inet" { action := ["deny"] }] }] with
    | .ok [o] => decide (¬ (ruleNames o).Nodup)
    | _ => false) = true := by decide +kernel
  split at this
  next o ho => exact ⟨o, ho, of_decide_eq_true this⟩
  · cases this

end Verif.Props
