import Verif.Props.Packetfilter
import Verif.Props.OpenConfigRefuted

/-!
Concrete cases for the theorems about capirca/lib/packetfilter.py, and the policies for which C92 to C95 fail.
-/

namespace Verif.Props
open Verif Verif.Spec Verif.Spec.Packetfilter Verif.Packetfilter Policy Aclgenerator Nacaddr Lemmas

/-! ### evaluation on concrete flows -/

instance pfProtoDec (s : String) (p : Packet) : Decidable (Spec.Packetfilter.ProtoIs s p) :=
  inferInstanceAs (Decidable (∃ e ∈ Spec.Packetfilter.protoNumbers, _))

instance pfTableDec (ts : List (String × List Net)) (s : String) (v : Ver) (x : Nat) : Decidable (InTable ts s v x) :=
  inferInstanceAs (Decidable (∃ t ∈ ts, _))

instance pfTargetDec (ts : List (String × List Net)) (a : Target) (v : Ver) (x : Nat) : Decidable (TargetHits ts a v x) := by
  unfold TargetHits
  split <;> infer_instance

instance pfFlagDec (p : Packet) (c : Char) : Decidable (HasFlag p c) := inferInstanceAs (Decidable (∃ e ∈ flagNames, _))

instance pfPortDec (l : List PortRange) (p : Packet) (x : Nat) : Decidable (PortHits l p x) := inferInstanceAs (Decidable (_ ∨ _))

instance pfRuleDec (ts : List (String × List Net)) (f : Flow) (r : Rule) : Decidable (RuleHits ts f r) :=
  decidable_of_iff
    ((r.direction = "" ∨ r.direction = f.dir) ∧
      (Flat.IfSet r.interface fun i => (if f.dir = "in" then f.packet.inInterface else f.packet.outInterface) = i) ∧
      (r.family = "" ∨ r.family = if f.packet.ver = .v4 then "inet" else "inet6") ∧
      (r.protos = [] ∨ ∃ s ∈ r.protos, Spec.Packetfilter.ProtoIs s f.packet) ∧
      (∃ a ∈ r.src, TargetHits ts a f.packet.ver f.packet.src) ∧ (∃ a ∈ r.dst, TargetHits ts a f.packet.ver f.packet.dst) ∧
      PortHits r.sport f.packet f.packet.sport ∧ PortHits r.dport f.packet f.packet.dport ∧
      (Flat.IfSet (FlagsOf r) fun a => f.packet.proto = "tcp" → ∀ c ∈ a.2, HasFlag f.packet c ↔ c ∈ a.1) ∧
      (r.types = [] ∨ (f.packet.proto = "icmp" ∧ ∃ k ∈ r.types, (f.packet.icmpType, k) ∈ icmpV4)) ∧
      (r.types6 = [] ∨ (f.packet.proto = "icmpv6" ∧ ∃ k ∈ r.types6, (f.packet.icmpType, k) ∈ icmpV6)))
    ⟨fun ⟨a, b, c, d, e, f, g, h, i, j, k⟩ => ⟨a, b, c, d, e, f, g, h, i, j, k⟩,
      fun ⟨a, b, c, d, e, f, g, h, i, j, k⟩ => ⟨a, b, c, d, e, f, g, h, i, j, k⟩⟩

instance pfLiveDec (g : PTerm) : Decidable (Spec.Packetfilter.Live g) := inferInstanceAs (Decidable (_ ∧ (_ ∨ _) ∧ _))

instance pfFamilyDec (l : List String) (v : Ver) : Decidable (FamilyIs l v) := inferInstanceAs (Decidable (_ ∨ _ ∨ _))

instance pfDirectionDec (l : List String) (d : String) : Decidable (DirectionIs l d) := inferInstanceAs (Decidable ((_ → _) ∧ (_ → _ → _)))

instance pfSideDec (t : Term) (d : String) : Decidable (SideIs t d) := inferInstanceAs (Decidable ((_ → _) ∧ (_ → _)))

instance pfRealDec (p : Packet) : Decidable (Real p) :=
  decidable_of_iff
    (p.proto ∈ iana.map Prod.fst ∧ (p.ver = .v4 → p.proto ≠ "icmpv6") ∧ (p.ver = .v6 → p.proto ≠ "icmp") ∧
      p.hasOption "established" = p.hasOption "tcp-established" ∧ (p.proto = "udp" → p.hasOption "tcp-established" = true) ∧
      (p.proto = "tcp" → p.hasOption "tcp-established" = p.hasOption "ack") ∧
      (p.hasOption "all" = true ↔ ∀ e ∈ flagNames, p.hasOption e.2 = true))
    ⟨fun ⟨a, b, c, d, e, f, g⟩ => ⟨a, b, c, d, e, f, g⟩, fun ⟨a, b, c, d, e, f, g⟩ => ⟨a, b, c, d, e, f, g⟩⟩

instance pfOpensDec (p : Packet) : Decidable (Opens p) := inferInstanceAs (Decidable (_ → _ ∧ _))

/-- The outcome of a walk; for concrete cases. -/
def pfRun (ts : List (String × List Net)) (f : Flow) : String → List Rule → String
  | v, [] => v
  | v, r :: rs => if RuleHits ts f r then (if r.quick then r.action else pfRun ts f r.action rs) else pfRun ts f v rs

theorem pfRun_iff {ts : List (String × List Net)} {f : Flow} {u : String} : ∀ {rs : List Rule} {v : String},
    Walk (RuleHits ts f) v rs u ↔ u = pfRun ts f v rs
  | [], v => ⟨fun h => by cases h; rfl, fun h => by subst h; exact .done⟩
  | r :: rs, v => by
    unfold pfRun
    by_cases h : RuleHits ts f r
    · rw [if_pos h]
      cases hq : r.quick with
      | true =>
        constructor
        · intro hw
          cases hw with
          | quick => rfl
          | later _ hq' => rw [hq] at hq'; cases hq'
          | miss hn => exact absurd h hn
        · intro e
          simp only [if_true] at e
          subst e
          exact .quick h hq
      | false =>
        constructor
        · intro hw
          cases hw with
          | quick _ hq' => rw [hq] at hq'; cases hq'
          | later _ _ hw => simpa using pfRun_iff.1 hw
          | miss hn => exact absurd h hn
        · intro e
          exact .later h hq (pfRun_iff.2 (by simpa using e))
    · rw [if_neg h, ← pfRun_iff]
      constructor
      · intro hw
        cases hw with
        | quick hh => exact absurd hh h
        | later hh => exact absurd hh h
        | miss _ hw => exact hw
      · exact .miss h

/-- What a term decides; for concrete cases. -/
def pfWant (f : Flow) (x : List String × PTerm) : Option String :=
  if Spec.Packetfilter.Live x.2 ∧ FamilyIs x.1 f.packet.ver ∧ DirectionIs x.1 f.dir ∧ SideIs x.2.term f.dir ∧ Matches x.2.term f.packet then
    match x.2.term.action with
    | [w] => Spec.Packetfilter.verdicts.lookup w
    | _ => none
  else none

theorem pfVerdicts_iff {w v : String} : (w, v) ∈ Spec.Packetfilter.verdicts ↔ Spec.Packetfilter.verdicts.lookup w = some v :=
  ⟨fun h => by
    simp only [Spec.Packetfilter.verdicts, List.mem_cons, List.not_mem_nil, or_false, Prod.mk.injEq] at h
    rcases h with ⟨rfl, rfl⟩ | ⟨rfl, rfl⟩ | ⟨rfl, rfl⟩ <;> rfl, Cisco.mem_of_lookup'⟩

theorem pfWant_iff {f : Flow} {x : List String × PTerm} {v : String} : Spec.Packetfilter.Wants f x v ↔ pfWant f x = some v := by
  unfold pfWant Spec.Packetfilter.Wants
  by_cases h : Spec.Packetfilter.Live x.2 ∧ FamilyIs x.1 f.packet.ver ∧ DirectionIs x.1 f.dir ∧ SideIs x.2.term f.dir ∧ Matches x.2.term f.packet
  · rw [if_pos h]
    simp only [h.1, h.2.1, h.2.2.1, h.2.2.2.1, h.2.2.2.2, true_and]
    split
    next w e =>
      rw [e, ← pfVerdicts_iff]
      refine ⟨?_, fun h => ⟨w, rfl, h⟩⟩
      rintro ⟨w', e', h'⟩
      obtain rfl : w = w' := by simpa using e'
      exact h'
    next hn =>
      refine iff_of_false ?_ (by simp)
      rintro ⟨w, e, _⟩
      exact hn w e
  · rw [if_neg h]
    exact iff_of_false (fun h' => h ⟨h'.1, h'.2.1, h'.2.2.1, h'.2.2.2.1, h'.2.2.2.2.1⟩) (by simp)

/-- What the policy says; for concrete cases. -/
def pfDecides (fs : List Packetfilter.Filter) (f : Flow) : String :=
  ((Spec.Packetfilter.terms fs).findSome? (pfWant f)).getD "pass"

theorem pfDecides_iff {fs : List Packetfilter.Filter} {f : Flow} {v : String} :
    Spec.Packetfilter.Decides fs f v ↔ v = pfDecides fs f := by
  unfold Spec.Packetfilter.Decides pfDecides
  simp only [pfWant_iff]
  generalize Spec.Packetfilter.terms fs = l
  induction l with
  | nil => simp [first_nil]
  | cons x l ih =>
    rw [first_cons, List.findSome?_cons]
    simp only [pfWant_iff]
    cases hw : pfWant f x with
    | none => simpa [hw] using ih
    | some w =>
      have h1 : ¬ ((∀ y ∈ x :: l, ∀ u, ¬ pfWant f y = some u) ∧ v = "pass") := fun h => h.1 x List.mem_cons_self w hw
      rw [or_iff_left h1]
      simp [eq_comm]

/-- The rule set does `v` with the packet and nothing else; the policy says `w` and nothing else. -/
def PfCase (fs : List Packetfilter.Filter) (f : Flow) (v w : String) : Prop :=
  ∃ o, Packetfilter.output fs = .ok o ∧ (∀ u, Does o f u ↔ u = v) ∧ ∀ u, Spec.Packetfilter.Decides fs f u ↔ u = w

/-- The outcome and what it should be; for concrete cases. -/
def pfCase (fs : List Packetfilter.Filter) (f : Flow) : Option (String × String) :=
  match Packetfilter.output fs with
  | .ok o => some (pfRun o.tables f "pass" o.rules, pfDecides fs f)
  | .error _ => none

theorem pf_case {fs : List Packetfilter.Filter} {f : Flow} {v w : String} (h : pfCase fs f = some (v, w)) : PfCase fs f v w := by
  unfold pfCase at h
  split at h
  next o e =>
    cases h
    exact ⟨o, e, fun u => pfRun_iff, fun u => pfDecides_iff⟩
  · cases h

/-- All terms pass the checks of the tool. -/
def PfAccepted (fs : List Packetfilter.Filter) : Prop :=
  ∀ x ∈ fs, ∀ g ∈ x.terms, initCheck Packetfilter.tables [(["packetfilter"], [kterm g.term])] = .ok () ∧ sanityCheck g.term = .ok ()

instance pfAcceptedDec (fs : List Packetfilter.Filter) : Decidable (PfAccepted fs) :=
  inferInstanceAs (Decidable (∀ x ∈ fs, ∀ g ∈ x.terms, _))

/-! ### the policies for which C92 fails -/

/-- A filter with the terms. -/
def pfFilter (options : List String) (terms : List Term) : Packetfilter.Filter := { options := options, terms := terms.map fun t => { term := t } }

/-- A network of a token. -/
def pfNet (n : Net) (token : String) : Net := { n with parent := token }

/-- A TCP packet that opens a connection. -/
def pfSyn (src : Nat) (dport : Nat) : Flow :=
  { packet := { proto := "tcp", sport := 1024, dport := dport, src := src, dst := 0x0a000002, hasOption := fun o => o == "syn" } }

/-- A TCP packet of a connection. -/
def pfAck (src : Nat) (dport : Nat) : Flow :=
  { packet := { (pfSyn src dport).packet with hasOption := fun o => ["ack", "established", "tcp-established"].contains o } }

def pfDeny : Term := { name := "z".toList, action := ["deny"] }

/-- Excluded addresses: a packet from any address passes, since `!<table>` is one more way to match, and the table does not
even exist. -/
theorem C92_refuted_exclude : ∃ fs f, PfAccepted fs ∧ Real f.packet ∧ Opens f.packet ∧ f.dir = "in" ∧ Closed fs ∧ PfCase fs f "pass" "block drop" :=
  ⟨[pfFilter ["in"] [{ name := "a".toList, action := ["accept"], sourceAddress := [pfNet (ip4 10 0 0 0 8) "TEN"], sourceAddressExclude := [pfNet (ip4 10 1 0 0 16) "ONE"] }, pfDeny]], pfSyn 0x0b000001 22,
    by decide +kernel, by decide +kernel, by decide +kernel, rfl, by
      rintro l m ⟨x, hx, g, hg, hl⟩ ⟨x', hx', g', hg', hm⟩ n hn ht v a hmem
      obtain rfl := List.mem_singleton.1 hx
      obtain rfl := List.mem_singleton.1 hx'
      simp only [pfFilter, List.map_cons, List.map_nil, List.mem_cons, List.not_mem_nil, or_false] at hg hg'
      rcases hg with rfl | rfl <;> rcases hg' with rfl | rfl <;> rcases hl with rfl | rfl <;> rcases hm with rfl | rfl <;>
        first | (cases hn; done) | (cases ht; done) | exact ⟨n, hn, hmem⟩,
    pf_case (by decide +kernel)⟩

/-- A token with more addresses in another term: the first term lets pass what only the second has. -/
theorem C92_refuted_tokens : ∃ fs f, PfAccepted fs ∧ Real f.packet ∧ Opens f.packet ∧ f.dir = "in" ∧ PfCase fs f "pass" "block drop" :=
  ⟨[pfFilter ["in"] [{ name := "a".toList, action := ["accept"], sourceAddress := [pfNet (ip4 10 0 0 0 9) "HALF"] }, pfDeny,
      { name := "b".toList, action := ["accept"], sourceAddress := [pfNet (ip4 10 0 0 0 8) "HALF"] }]], pfSyn 0x0ac80001 22,
    by decide +kernel, by decide +kernel, by decide +kernel, rfl, pf_case (by decide +kernel)⟩

/-- A term that denies everything: TCP packets without `syn` pass. -/
theorem C92_refuted_deny : ∃ fs f, PfAccepted fs ∧ Real f.packet ∧ f.dir = "in" ∧ PfCase fs f "pass" "block drop" :=
  ⟨[pfFilter ["in"] [pfDeny]], pfAck 0x0b000001 22, by decide +kernel, by decide +kernel, rfl, pf_case (by decide +kernel)⟩

/-- An interface for packets that go out in a filter for packets that come in: packets that go out are denied. -/
theorem C92_refuted_direction : ∃ fs f, PfAccepted fs ∧ Real f.packet ∧ Opens f.packet ∧ f.dir = "out" ∧
    PfCase fs f "block drop" "pass" :=
  ⟨[pfFilter ["in"] [{ pfDeny with destinationInterface := some "em1" }]],
    { (pfSyn 0x0b000001 22) with dir := "out", packet := { (pfSyn 0x0b000001 22).packet with outInterface := "em1" } },
    by decide +kernel, by decide +kernel, by decide +kernel, rfl, pf_case (by decide +kernel)⟩

/-- `established` without a protocol: all ICMP packets pass. -/
theorem C92_refuted_established : ∃ fs f, PfAccepted fs ∧ Real f.packet ∧ Opens f.packet ∧ f.dir = "in" ∧ PfCase fs f "pass" "block drop" :=
  ⟨[pfFilter ["in"] [{ name := "a".toList, action := ["accept"], option := ["established"] }, pfDeny]],
    { packet := { proto := "icmp", icmpType := "echo-request" } },
    by decide +kernel, by decide +kernel, by decide +kernel, rfl, pf_case (by decide +kernel)⟩

/-- A term for one family in a filter for both: packets of the other family pass. -/
theorem C92_refuted_family : ∃ fs f, PfAccepted fs ∧ Real f.packet ∧ Opens f.packet ∧ f.dir = "in" ∧ PfCase fs f "pass" "block drop" :=
  ⟨[pfFilter ["in", "mixed"] [{ name := "a".toList, action := ["accept"], restrictAddressFamily := some "inet6" }, pfDeny]], pfSyn 0x0b000001 22,
    by decide +kernel, by decide +kernel, by decide +kernel, rfl, pf_case (by decide +kernel)⟩

/-- `ipip` is turned into a number, which the generator cannot print. -/
theorem C92_refuted_ipip : ∃ fs, PfAccepted fs ∧ Packetfilter.output fs = .error .typeError :=
  ⟨[pfFilter [] [{ name := "a".toList, action := ["accept"], protocol := ["ipip"] }]], by decide +kernel, by decide +kernel⟩

/-- Verbatim terms pass all checks, but the generator fails on them. -/
theorem C92_refuted_verbatim : ∃ fs, PfAccepted fs ∧ Packetfilter.output fs = .error .indexError :=
  ⟨[pfFilter [] [{ name := "a".toList, verbatim := [("packetfilter", "pass")] }]], by decide +kernel, by decide +kernel⟩

/-! ### C93 to C95 -/

/-- The table that a rule excludes is not defined. -/
theorem C93_refuted : ∃ fs o r s, PfAccepted fs ∧ Packetfilter.output fs = .ok o ∧ r ∈ o.rules ∧ Target.except s ∈ r.src ∧ s ∉ o.tables.map Prod.fst :=
  ⟨[pfFilter [] [{ name := "a".toList, action := ["accept"], sourceAddress := [pfNet (ip4 10 0 0 0 8) "TEN"], sourceAddressExclude := [pfNet (ip4 10 1 0 0 16) "ONE"] }]],
    ⟨[("TEN", [pfNet (ip4 10 0 0 0 8) "TEN"])],
      [{ action := "pass", family := "inet", src := [.table "TEN", .except "ONE"], dst := [.any], flags := some (['S'], ['S', 'A']), state := "keep state" }]⟩,
    _, "ONE", by decide +kernel, by decide +kernel, List.mem_singleton.2 rfl, by decide +kernel, by decide +kernel⟩

/-- A filter after one with `nostate` keeps no state either. -/
theorem C94_refuted : ∃ f g o r, PfAccepted [f, g] ∧ "nostate" ∉ g.options ∧ f.terms = [] ∧ Packetfilter.output [f, g] = .ok o ∧
    r ∈ o.rules ∧ r.action = "pass" ∧ r.state = "no state" :=
  ⟨pfFilter ["nostate"] [], pfFilter [] [{ name := "a".toList, action := ["accept"] }],
    ⟨[], [{ action := "pass", family := "inet", src := [.any], dst := [.any], state := "no state" }]⟩, _,
    by decide +kernel, by decide, rfl, by decide +kernel, List.mem_singleton.2 rfl, rfl, rfl⟩

/-- A term that says `logging:: disable` is logged. -/
theorem C95_refuted : ∃ fs o r, PfAccepted fs ∧ (∀ x ∈ fs, ∀ g ∈ x.terms, g.term.logging = ["disable"]) ∧ Packetfilter.output fs = .ok o ∧
    r ∈ o.rules ∧ r.log = true :=
  ⟨[pfFilter [] [{ name := "a".toList, action := ["accept"], logging := ["disable"] }]],
    ⟨[], [{ action := "pass", log := true, family := "inet", src := [.any], dst := [.any], flags := some (['S'], ['S', 'A']), state := "keep state" }]⟩, _,
    by decide +kernel, by decide +kernel, by decide +kernel, List.mem_singleton.2 rfl, rfl⟩

/-! ### a policy for which the theorems hold -/

/-- Two filters with all kinds of terms. -/
def pfGood : List Packetfilter.Filter :=
  [{ options := ["in", "mixed"], terms := [
      { term := { name := "web".toList, action := ["accept"], protocol := ["tcp"], destinationPort := [⟨80, 80⟩, ⟨443, 443⟩],
                  destinationAddress := [pfNet (ip4 10 0 0 0 8) "SERVERS", pfNet { ver := .v6, addr := 0x20010db8 * 2 ^ 96, plen := 32 } "SERVERS"],
                  logging := ["true"] } },
      { term := { name := "old".toList, action := ["accept"], sourceAddress := [pfNet (ip4 11 0 0 0 8) "OLD"] }, expired := true },
      { term := { name := "ping".toList, action := ["next"], protocol := ["icmp"], icmpType := ["echo-request"] } },
      { term := { name := "replies".toList, action := ["accept"], protocol := ["tcp", "udp"], option := ["established"] } },
      { term := { name := "rest".toList, action := ["deny"], sourceInterface := some "em0" } }] },
   { options := ["out", "inet"], terms := [
      { term := { name := "bad".toList, action := ["reject"], protocol := ["tcp"], option := ["syn", "fin"],
                  sourceAddress := [pfNet (ip4 10 0 0 0 8) "SERVERS", pfNet { ver := .v6, addr := 0x20010db8 * 2 ^ 96, plen := 32 } "SERVERS"] } }] }]

/-- All address lists of a policy; for concrete cases. -/
def pfLists (fs : List Packetfilter.Filter) : List (List Net) :=
  fs.flatMap fun x => x.terms.flatMap fun g => [g.term.sourceAddress, g.term.destinationAddress]

theorem pfLists_of {fs : List Packetfilter.Filter} {l : List Net} (h : Lists fs l) : l ∈ pfLists fs := by
  obtain ⟨x, hx, g, hg, hl⟩ := h
  exact List.mem_flatMap.2 ⟨x, hx, List.mem_flatMap.2 ⟨g, hg, by simpa using hl⟩⟩

theorem closed_of {fs : List Packetfilter.Filter}
    (h : ∀ l ∈ pfLists fs, ∀ m ∈ pfLists fs, ∀ n ∈ m, n.parent ∈ l.map Net.parent → n ∈ l) : Closed fs :=
  fun l m hl hm n hn ht _ _ hmem => ⟨n, h l (pfLists_of hl) m (pfLists_of hm) n hn ht, hmem⟩

theorem pfGood_fits : ∀ x ∈ pfGood, ∀ g ∈ x.terms, Spec.Packetfilter.Live g → PfFits x.options g := by
  intro x hx g hg _
  simp only [pfGood, List.mem_cons, List.not_mem_nil, or_false] at hx
  rcases hx with rfl | rfl
  · simp only [List.mem_cons, List.not_mem_nil, or_false] at hg
    rcases hg with rfl | rfl | rfl | rfl | rfl <;>
      exact ⟨by decide +kernel, by decide, rfl, ⟨rfl, rfl, (by decide), (by decide)⟩, rfl, rfl, by decide, by decide, by decide, by decide, by decide⟩
  · simp only [List.mem_cons, List.not_mem_nil, or_false] at hg
    subst hg
    exact ⟨by decide +kernel, by decide, rfl, ⟨rfl, rfl, (by decide), (by decide)⟩, rfl, rfl, by decide, by decide, by decide, by decide, by decide⟩

theorem pfGood_nets : ∀ l, Lists pfGood l → ∀ n ∈ l, WF n := by
  have key : ∀ x ∈ pfGood, ∀ g ∈ x.terms, ∀ l ∈ [g.term.sourceAddress, g.term.destinationAddress], ∀ n ∈ l, WF n := by decide +kernel
  rintro l ⟨x, hx, g, hg, hl⟩
  exact key x hx g hg l (by simpa using hl)

/-- The hypotheses of `C92_policy_partial` are met, for a packet that opens a connection. -/
example : ∃ o, Packetfilter.output pfGood = .ok o ∧ (∀ u, Does o (pfSyn 0x0b000001 80) u ↔ u = "pass") ∧
    ∀ v, Does o (pfSyn 0x0b000001 80) v ↔ Spec.Packetfilter.Decides pfGood (pfSyn 0x0b000001 80) v := by
  obtain ⟨o, h1, h2, _⟩ := pf_case (fs := pfGood) (f := pfSyn 0x0b000001 80) (v := "pass") (w := "pass") (by decide +kernel)
  exact ⟨o, h1, h2, C92_policy_partial h1 pfGood_fits (closed_of (by decide +kernel)) pfGood_nets (by decide +kernel) (.inl rfl)
    (.inl (by decide +kernel))⟩

/-- One that is blocked. -/
example : PfCase pfGood { (pfSyn 0x0b000001 22) with packet := { (pfSyn 0x0b000001 22).packet with inInterface := "em0" } } "block drop" "block drop" :=
  pf_case (by decide +kernel)

/-- Rules without state, for a packet of a connection. -/
example : ∃ fs o, Packetfilter.output fs = .ok o ∧
    ∀ v, Does o (pfAck 0x0b000001 80) v ↔ Spec.Packetfilter.Decides fs (pfAck 0x0b000001 80) v := by
  refine ⟨[pfFilter ["in", "nostate"] [{ name := "a".toList, action := ["accept"], protocol := ["tcp"], option := ["tcp-established"] }, pfDeny]],
    _, rfl, C92_policy_partial rfl ?_ (closed_of (by decide +kernel)) ?_ (by decide +kernel) (.inl rfl) (.inr ?_)⟩
  · intro x hx g hg _
    obtain rfl := List.mem_singleton.1 hx
    simp only [pfFilter, List.map_cons, List.map_nil, List.mem_cons, List.not_mem_nil, or_false] at hg
    rcases hg with rfl | rfl <;>
      exact ⟨by decide +kernel, by decide, rfl, ⟨rfl, rfl, (by decide), (by decide)⟩, rfl, rfl, by decide, by decide, by decide, by decide, by decide⟩
  · rintro l ⟨x, hx, g, hg, hl⟩ n hn
    obtain rfl := List.mem_singleton.1 hx
    simp only [pfFilter, List.map_cons, List.map_nil, List.mem_cons, List.not_mem_nil, or_false] at hg
    rcases hg with rfl | rfl <;> rcases hl with rfl | rfl <;> cases hn
  · rintro x ⟨⟩
    decide

/-- C93, C94 and C95 for the same policy: it has an output with tables, states and logging. -/
example : ∃ o, Packetfilter.output pfGood = .ok o ∧ o.tables.map Prod.fst = ["SERVERS", "OLD"] ∧
    (∃ r ∈ o.rules, Target.table "SERVERS" ∈ r.dst ∧ r.log = true ∧ r.state = "keep state") ∧ ∃ r ∈ o.rules, r.log = false := by
  have key : (match Packetfilter.output pfGood with
      | .ok o => decide (o.tables.map Prod.fst = ["SERVERS", "OLD"] ∧
          (∃ r ∈ o.rules, Target.table "SERVERS" ∈ r.dst ∧ r.log = true ∧ r.state = "keep state") ∧ ∃ r ∈ o.rules, r.log = false)
      | .error _ => false) = true := by decide +kernel
  split at key
  next o e => exact ⟨o, e, of_decide_eq_true key⟩
  · cases key

end Verif.Props
