import Verif.Props.SrxText
import Verif.Props.SrxSplit
import Verif.Props.PacketfilterRefuted

/-!
Concrete cases for the theorems about capirca/lib/junipersrx.py, and the policies for which C96 to C101 fail.
-/

namespace Verif.Props
open Verif Verif.Spec Verif.Spec.Srx Verif.Srx Policy Aclgenerator Nacaddr Lemmas

/-! ### evaluation on concrete packets -/

instance srxSetDec (b : Book) (s : String × List String) (v : Ver) (x : Nat) : Decidable (SetHas b s v x) :=
  inferInstanceAs (Decidable (∃ m ∈ s.2, ∃ a ∈ b.addresses, _))

instance srxAddrDec (o : Output) (zone : String) (names : Option (List String)) (v : Ver) (x : Nat) : Decidable (AddrHits o zone names v x) :=
  inferInstanceAs (Decidable (Flat.IfSet names _))

instance srxProtoDec (s : Proto) (p : Packet) : Decidable (Spec.Srx.ProtoIs s p) :=
  inferInstanceAs (Decidable (∃ e ∈ Spec.Srx.protoNumbers, _))

instance srxAppTermDec (p : Packet) (t : AppTerm) : Decidable (AppTermHits p t) := inferInstanceAs (Decidable (_ ∧ _ ∧ _ ∧ _))

/-- The definition is an application of the name with a term that matches. -/
def srxApp (p : Packet) (name : Str) : Def → Bool
  | .app n ts => decide (n = name) && decide (∃ t ∈ ts, AppTermHits p t)
  | .set _ _ => false

instance srxSingleDec (ds : List Def) (p : Packet) (name : Str) : Decidable (SingleHits ds p name) :=
  decidable_of_iff (ds.any (srxApp p name) = true) (by
    unfold SingleHits
    rw [List.any_eq_true]
    constructor
    · rintro ⟨d, hd, h⟩
      cases d with
      | app n ts =>
        rw [srxApp, Bool.and_eq_true, decide_eq_true_eq, decide_eq_true_eq] at h
        exact ⟨ts, h.1 ▸ hd, h.2⟩
      | set n ms => cases h
    · rintro ⟨ts, hd, h⟩
      exact ⟨_, hd, by rw [srxApp, Bool.and_eq_true]; exact ⟨by simp, by simpa using h⟩⟩)

/-- The definition is a set of the name with a member that matches. -/
def srxSet (ds : List Def) (p : Packet) (name : Str) : Def → Bool
  | .app _ _ => false
  | .set n ms => decide (n = name) && decide (∃ m ∈ ms, SingleHits ds p m)

instance srxAppDec (ds : List Def) (p : Packet) (name : Str) : Decidable (AppHits ds p name) :=
  decidable_of_iff (SingleHits ds p name ∨ ds.any (srxSet ds p name) = true) (or_congr_right (by
    rw [List.any_eq_true]
    constructor
    · rintro ⟨d, hd, h⟩
      cases d with
      | app n ts => cases h
      | set n ms =>
        rw [srxSet, Bool.and_eq_true, decide_eq_true_eq, decide_eq_true_eq] at h
        exact ⟨ms, h.1 ▸ hd, h.2⟩
    · rintro ⟨ms, hd, h⟩
      exact ⟨_, hd, by rw [srxSet, Bool.and_eq_true]; exact ⟨by simp, by simpa using h⟩⟩))

instance srxPolicyDec (o : Output) (p : Packet) (q : SPolicy) : Decidable (PolicyHits o p q) :=
  decidable_of_iff
    (AddrHits o p.srcZone q.src p.ver p.src ∧ AddrHits o p.dstZone q.dst p.ver p.dst ∧
      (Flat.IfSet q.app fun a => AppHits (defs o.apps) p (a ++ "-app".toList)) ∧ (q.dscp = [] ∨ p.dscp ∈ q.dscp) ∧ p.dscp ∉ q.dscpExcept ∧
      (q.fromZones = [] ∨ p.srcZone ∈ q.fromZones) ∧ (q.toZones = [] ∨ p.dstZone ∈ q.toZones))
    ⟨fun ⟨a, b, c, d, e, f, g⟩ => ⟨a, b, c, d, e, f, g⟩, fun ⟨a, b, c, d, e, f, g⟩ => ⟨a, b, c, d, e, f, g⟩⟩

instance srxLiveDec (g : STerm) : Decidable (Spec.Srx.Live g) := inferInstanceAs (Decidable (_ ∧ _ ∧ (_ ∨ _) ∧ _ ∧ _ ∧ _))

instance srxFamilyDec (l : List String) (v : Ver) : Decidable (Spec.Srx.FamilyIs l v) := inferInstanceAs (Decidable (_ ∨ _ ∨ _ ∧ _))

instance srxRealDec (p : Packet) : Decidable (SrxReal p) :=
  decidable_of_iff (p.src < 2 ^ p.ver.bits ∧ p.dst < 2 ^ p.ver.bits) ⟨fun ⟨a, b⟩ => ⟨a, b⟩, fun ⟨a, b⟩ => ⟨a, b⟩⟩

/-- The first entry of a list with an answer; for concrete cases. -/
theorem first_findSome {α : Type} {hit : α → String → Prop} {f : α → Option String} (hf : ∀ a v, hit a v ↔ f a = some v) {d v : String} :
    ∀ {l : List α}, (First hit l v ∨ ((∀ a ∈ l, ∀ w, ¬ hit a w) ∧ v = d)) ↔ v = (l.findSome? f).getD d
  | [] => by simp [first_nil]
  | a :: l => by
    have ih := first_findSome hf (d := d) (v := v) (l := l)
    rw [first_cons, List.findSome?_cons]
    simp only [hf] at ih ⊢
    cases hw : f a with
    | none => simpa [hw] using ih
    | some w =>
      have h1 : ¬ ((∀ y ∈ a :: l, ∀ u, ¬ f y = some u) ∧ v = d) := fun h => h.1 a List.mem_cons_self w hw
      rw [or_iff_left h1]
      simp [eq_comm]

/-- The answer of a list of words and their meanings. -/
theorem mem_lookup {l : List (String × String)} (hn : (l.map Prod.fst).Nodup) {w v : String} : (w, v) ∈ l ↔ l.lookup w = some v :=
  ⟨fun h => lookup_nodup hn h, Cisco.mem_of_lookup'⟩

/-- What a policy does; for concrete cases. -/
def srxHit (o : Output) (p : Packet) (q : SPolicy) : Option String :=
  if PolicyHits o p q then
    match q.thens with
    | [t] => words.lookup t.action
    | _ => none
  else none

theorem srxHit_iff {o : Output} {p : Packet} (q : SPolicy) (v : String) : Hits o p q v ↔ srxHit o p q = some v := by
  unfold Hits srxHit
  by_cases h : PolicyHits o p q
  · rw [if_pos h]
    simp only [h, true_and]
    split
    next t e =>
      rw [e, ← mem_lookup (by decide)]
      exact ⟨fun ⟨t', e', h'⟩ => by cases e'; exact h', fun h => ⟨t, rfl, h⟩⟩
    next hn => exact iff_of_false (fun ⟨t, e, _⟩ => hn t e) (by simp)
  · rw [if_neg h]
    exact iff_of_false (fun h' => h h'.1) (by simp)

/-- What a term decides; for concrete cases. -/
def srxWant (p : Packet) (x : Srx.Filter × STerm) : Option String :=
  if Spec.Srx.Live x.2 ∧ Spec.Srx.FamilyIs x.1.options p.ver ∧ Matches x.2.term p then
    match x.2.term.action with
    | [w] => Spec.Srx.verdicts.lookup w
    | _ => none
  else none

theorem srxWant_iff {p : Packet} (x : Srx.Filter × STerm) (v : String) : Spec.Srx.Wants p x v ↔ srxWant p x = some v := by
  unfold Spec.Srx.Wants srxWant
  by_cases h : Spec.Srx.Live x.2 ∧ Spec.Srx.FamilyIs x.1.options p.ver ∧ Matches x.2.term p
  · rw [if_pos h]
    simp only [h.1, h.2.1, h.2.2, true_and]
    split
    next w e =>
      rw [e, ← mem_lookup (by decide)]
      exact ⟨fun ⟨t', e', h'⟩ => by cases e'; exact h', fun h => ⟨w, rfl, h⟩⟩
    next hn => exact iff_of_false (fun ⟨t, e, _⟩ => hn t e) (by simp)
  · rw [if_neg h]
    exact iff_of_false (fun h' => h ⟨h'.1, h'.2.1, h'.2.2.1⟩) (by simp)

/-- The firewall does `v` with the packet and nothing else; the policy says `w` and nothing else. -/
def SrxCase (fs : List Srx.Filter) (p : Packet) (v w : String) : Prop :=
  ∃ o, Srx.output fs = .ok o ∧ (∀ u, Spec.Srx.Does o p u ↔ u = v) ∧ ∀ u, Spec.Srx.Decides fs p u ↔ u = w

/-- The outcome and what it should be; for concrete cases. -/
def srxCase (fs : List Srx.Filter) (p : Packet) : Option (String × String) :=
  match Srx.output fs with
  | .ok o => some (((tried o p).findSome? (srxHit o p)).getD "deny", ((Spec.Srx.terms fs p).findSome? (srxWant p)).getD "deny")
  | .error _ => none

theorem srx_case {fs : List Srx.Filter} {p : Packet} {v w : String} (h : srxCase fs p = some (v, w)) : SrxCase fs p v w := by
  unfold srxCase at h
  split at h
  next o e =>
    cases h
    exact ⟨o, e, fun u => first_findSome srxHit_iff, fun u => first_findSome srxWant_iff⟩
  · cases h

/-- All terms pass the checks of the tool, and the networks are networks. -/
def SrxAccepted (fs : List Srx.Filter) : Prop :=
  ∀ x ∈ fs, ∀ g ∈ x.terms, initCheck Srx.tables [(["srx"], [kterm g.term])] = .ok () ∧ sanityCheck g.term = .ok () ∧
    ∀ n ∈ g.term.sourceAddress ++ g.term.sourceAddressExclude ++ g.term.destinationAddress ++ g.term.destinationAddressExclude, WF n

instance srxAcceptedDec (fs : List Srx.Filter) : Decidable (SrxAccepted fs) :=
  inferInstanceAs (Decidable (∀ x ∈ fs, ∀ g ∈ x.terms, _))

/-! ### the policies for which C96 fails -/

/-- A filter with the terms. -/
def srxFilter (options : List String) (terms : List Term) : Srx.Filter :=
  { fromZone := "trust", toZone := "untrust", options := options, terms := terms.map fun t => { term := t } }

/-- A term that accepts. -/
def srxYes : Term := { name := "a".toList, action := ["accept"] }

/-- A network of a token. -/
def srxNet (n : Net) (token : String) : Net := { n with parent := token, token := token }

/-- A TCP packet between the zones. -/
def srxPkt (src : Nat) (dport : Nat) : Packet :=
  { proto := "tcp", sport := 1024, dport := dport, src := src, dst := 0x0a000002, srcZone := "trust", dstZone := "untrust" }

/-- The exclusion leaves nothing: the policy is for all sources. -/
theorem C96_refuted_nothing : ∃ fs p, SrxAccepted fs ∧ SrxReal p ∧ SrxCase fs p "permit" "deny" :=
  ⟨[srxFilter [] [{ srxYes with sourceAddress := [srxNet (ip4 10 0 0 0 8) "TEN"], sourceAddressExclude := [srxNet (ip4 10 0 0 0 8) "TEN"] }]], srxPkt 0x0b000001 22,
    by decide +kernel, by decide +kernel, srx_case (by decide +kernel)⟩

/-- An exclusion without addresses: packets of IPv6 are not permitted. -/
theorem C96_refuted_naked : ∃ fs p, SrxAccepted fs ∧ SrxReal p ∧ SrxCase fs p "deny" "permit" :=
  ⟨[srxFilter [] [{ srxYes with sourceAddressExclude := [srxNet (ip4 10 0 0 0 8) "TEN"] }]],
    { srxPkt 1 22 with ver := .v6 }, by decide +kernel, by decide +kernel, srx_case (by decide +kernel)⟩

/-- Terms of the same name in two filters: the sets for what is left after exclusion are one set, which has the addresses
of both. -/
theorem C96_refuted_shared : ∃ fs p, SrxAccepted fs ∧ SrxReal p ∧ SrxCase fs p "permit" "deny" :=
  ⟨[srxFilter [] [{ srxYes with sourceAddress := [srxNet (ip4 10 0 0 0 8) "TEN"], sourceAddressExclude := [srxNet (ip4 10 0 0 0 9) "HALF"] }],
    { srxFilter [] [{ srxYes with sourceAddress := [srxNet (ip4 11 0 0 0 8) "ELEVEN"], sourceAddressExclude := [srxNet (ip4 11 0 0 0 9) "ELEVEN_HALF"] }] with toZone := "dmz" }], srxPkt 0x0b800001 22,
    by decide +kernel, by decide +kernel, srx_case (by decide +kernel)⟩

/-- A token with more addresses in another term: the first term permits what only the second has. -/
theorem C96_refuted_tokens : ∃ fs p, SrxAccepted fs ∧ SrxReal p ∧ SrxCase fs p "permit" "deny" :=
  ⟨[srxFilter [] [{ srxYes with sourceAddress := [srxNet (ip4 10 0 0 0 9) "SERVERS"] },
      { name := "b".toList, action := ["deny"], sourceAddress := [srxNet (ip4 10 0 0 0 8) "SERVERS"] }]], srxPkt 0x0a800001 22,
    by decide +kernel, by decide +kernel, srx_case (by decide +kernel)⟩

/-- A filter for IPv4 beside one for both families: it permits packets of IPv6, since the set has these addresses, too. -/
theorem C96_refuted_families : ∃ fs p, SrxAccepted fs ∧ SrxReal p ∧ SrxCase fs p "permit" "deny" :=
  ⟨[srxFilter ["inet"] [{ srxYes with sourceAddress := [srxNet (ip4 10 0 0 0 8) "SERVERS", srxNet (ip6 0x20 8) "SERVERS"] }],
    { srxFilter [] [{ name := "b".toList, action := ["accept"], sourceAddress := [srxNet (ip4 10 0 0 0 8) "SERVERS", srxNet (ip6 0x20 8) "SERVERS"] }] with toZone := "dmz" }],
    { srxPkt (0x20 * 2 ^ 120) 22 with ver := .v6 }, by decide +kernel, by decide +kernel, srx_case (by decide +kernel)⟩

/-- A term without addresses in a filter for IPv4: it permits packets of IPv6. -/
theorem C96_refuted_inet : ∃ fs p, SrxAccepted fs ∧ SrxReal p ∧ SrxCase fs p "permit" "deny" :=
  ⟨[srxFilter ["inet"] [{ srxYes with protocol := ["tcp"] }]], { srxPkt 1 22 with ver := .v6 },
    by decide +kernel, by decide +kernel, srx_case (by decide +kernel)⟩

/-- Options other than for established connections are ignored: all packets are permitted. -/
theorem C96_refuted_options : ∃ fs p, SrxAccepted fs ∧ SrxReal p ∧ SrxCase fs p "permit" "deny" :=
  ⟨[srxFilter [] [{ srxYes with protocol := ["tcp"], option := ["rst"] }]], srxPkt 1 22,
    by decide +kernel, by decide +kernel, srx_case (by decide +kernel)⟩

/-- The family of a term is ignored. -/
theorem C96_refuted_restricted : ∃ fs p, SrxAccepted fs ∧ SrxReal p ∧ SrxCase fs p "permit" "deny" :=
  ⟨[srxFilter [] [{ srxYes with protocol := ["tcp"], restrictAddressFamily := some "inet" }]],
    { srxPkt 1 22 with ver := .v6 }, by decide +kernel, by decide +kernel, srx_case (by decide +kernel)⟩

/-- Two filters for the same zones: policies may have the same name, and the second replaces what the first says. -/
theorem C96_refuted_names : ∃ fs o a b q r, SrxAccepted fs ∧ Srx.output fs = .ok o ∧ o.blocks = [a, b] ∧ a.fromZone = b.fromZone ∧
    a.toZone = b.toZone ∧ a.policies = [q] ∧ b.policies = [r] ∧ q.name = r.name ∧ q ≠ r :=
  ⟨[srxFilter [] [{ name := "a".toList, action := ["accept"] }], srxFilter [] [{ name := "a".toList, action := ["deny"] }]],
    ⟨[⟨none, [], []⟩], [⟨"trust", "untrust", [{ name := "a".toList, thens := [{ action := "permit" }] }]⟩, ⟨"trust", "untrust", [{ name := "a".toList, thens := [{ action := "deny" }] }]⟩],
      [{ name := "a".toList }]⟩,
    _, _, _, _, by decide +kernel, by decide +kernel, rfl, rfl, rfl, rfl, rfl, rfl, by decide⟩

/-! ### the policies for which C97 to C101 fail -/

/-- C97: an address and a set of one book may have the same name. -/
theorem C97_refuted_names : ∃ fs o b s, SrxAccepted fs ∧ Srx.output fs = .ok o ∧ b ∈ o.books ∧ s ∈ b.sets.map Prod.fst ∧
    s ∈ b.addresses.map Prod.fst := by
  let fs := [srxFilter [] [{ srxYes with sourceAddress := [srxNet (ip4 10 0 0 0 8) "WEB", srxNet (ip4 11 0 0 0 8) "WEB_0"] }]]
  have h : ((Srx.output fs).toOption.any fun o => o.books.any fun b => (b.sets.map Prod.fst).any fun s => (b.addresses.map Prod.fst).contains s) = true := by
    decide +kernel
  cases e : Srx.output fs with
  | error _ => rw [e] at h; cases h
  | ok o =>
    rw [e] at h
    obtain ⟨b, hb, h⟩ := List.any_eq_true.1 h
    obtain ⟨s, hs, h⟩ := List.any_eq_true.1 h
    exact ⟨fs, o, b, s, by decide +kernel, e, hb, hs, by simpa using h⟩

/-- How deep the lines nest; for concrete cases. -/
def srxDepth : List Srx.Line → Int
  | [] => 0
  | .opens _ :: l => srxDepth l + 1
  | .closes :: l => srxDepth l - 1
  | .stmt _ :: l => srxDepth l

theorem srxDepth_append : ∀ {l m : List Srx.Line}, srxDepth (l ++ m) = srxDepth l + srxDepth m
  | [], m => by simp [srxDepth]
  | .opens _ :: l, m => by rw [List.cons_append, srxDepth, srxDepth, srxDepth_append]; omega
  | .closes :: l, m => by rw [List.cons_append, srxDepth, srxDepth, srxDepth_append]; omega
  | .stmt _ :: l, m => by rw [List.cons_append, srxDepth, srxDepth, srxDepth_append]

theorem balanced_depth {l : List Srx.Line} (h : Balanced l) : srxDepth l = 0 := by
  induction h with
  | nil => rfl
  | stmt _ ih => exact ih
  | block _ _ ih1 ih2 =>
    rw [srxDepth_append, srxDepth, srxDepth, ih1, ih2]
    rfl

/-- The depth of the output; for concrete cases. -/
def srxText (fs : List Srx.Filter) : Option Int :=
  match Srx.output fs with
  | .ok o => some (srxDepth (lines o))
  | .error _ => none

theorem srx_text {fs : List Srx.Filter} {d : Int} (h : srxText fs = some d) (hd : d ≠ 0) : ∃ o, Srx.output fs = .ok o ∧ ¬ Balanced (lines o) := by
  unfold srxText at h
  split at h
  next o e =>
    cases h
    exact ⟨o, e, fun hb => hd (balanced_depth hb)⟩
  · cases h

/-- C99: exactly eight ICMP types: the application is not closed. -/
theorem C99_refuted_eight : ∃ fs o, SrxAccepted fs ∧ Srx.output fs = .ok o ∧ ¬ Balanced (lines o) :=
  let fs := [srxFilter [] [{ srxYes with protocol := ["icmp"], icmpType := ["echo-reply", "unreachable", "source-quench", "redirect", "echo-request", "time-exceeded", "parameter-problem", "timestamp-request"] }]]
  have ⟨o, h1, h2⟩ := srx_text (fs := fs) (d := 1) (by decide +kernel) (by decide)
  ⟨fs, o, by decide +kernel, h1, h2⟩

/-- C99: two actions: the policy is closed twice. -/
theorem C99_refuted_actions : ∃ fs o, SrxAccepted fs ∧ Srx.output fs = .ok o ∧ ¬ Balanced (lines o) :=
  let fs := [srxFilter [] [{ name := "a".toList, action := ["accept", "log"] }]]
  have ⟨o, h1, h2⟩ := srx_text (fs := fs) (d := -1) (by decide +kernel) (by decide)
  ⟨fs, o, by decide +kernel, h1, h2⟩

/-- C99: a verbatim term, which need not have an action: the policy, which matches all packets, is not closed. -/
theorem C99_refuted_verbatim : ∃ fs o, SrxAccepted fs ∧ Srx.output fs = .ok o ∧ ¬ Balanced (lines o) :=
  let fs := [srxFilter [] [{ name := "a".toList, verbatim := [("srx", "policy b;")] }]]
  have ⟨o, h1, h2⟩ := srx_text (fs := fs) (d := 1) (by decide +kernel) (by decide)
  ⟨fs, o, by decide +kernel, h1, h2⟩

/-- Networks of IPv4. -/
def srxMany (a k : Nat) : List Net := (List.range k).map fun i => { ver := .v4, addr := a * 2 ^ 24 + i * 2, plen := 32 }

/-- C100: a part may have 1024 networks. -/
theorem C100_refuted_size : ∃ g g', SrxAccepted [srxFilter [] [g.term]] ∧ g' ∈ fixLarge "mixed" [g] ∧
    ((g'.term.sourceAddress ++ g'.term.destinationAddress).map sizeOfNet).sum = 1024 := by
  let g : STerm := { term := { srxYes with sourceAddress := srxMany 10 513, destinationAddress := srxMany 11 512 } }
  have h : ∃ g' ∈ fixLarge "mixed" [g], ((g'.term.sourceAddress ++ g'.term.destinationAddress).map sizeOfNet).sum = 1024 := by
    decide +kernel
  obtain ⟨g', hg', h⟩ := h
  exact ⟨g, g', by decide +kernel, hg', h⟩

/-- Networks of IPv6. -/
def srxMany6 (a k : Nat) : List Net := (List.range k).map fun i => { ver := .v6, addr := a * 2 ^ 120 + i * 2, plen := 128 }

/-- C100: the parts of two terms may use the same token for different addresses. -/
theorem C100_refuted_tokens : ∃ g h g' h' n m, g.term.name ≠ h.term.name ∧ g' ∈ fixLarge "mixed" [g] ∧ h' ∈ fixLarge "mixed" [h] ∧
    n ∈ g'.term.sourceAddress ∧ m ∈ h'.term.sourceAddress ∧ n.parent = m.parent ∧ n.addr ≠ m.addr := by
  let g : STerm := { term := { srxYes with sourceAddress := srxMany6 0x20 1290 } }
  let h : STerm := { term := { name := "a1".toList, action := ["accept"], sourceAddress := srxMany6 0x30 300 } }
  have e1 : ∃ g' ∈ fixLarge "mixed" [g], ∃ n ∈ g'.term.sourceAddress, n.parent = "src_a10" ∧ n.addr / 2 ^ 120 = 0x20 := by
    decide +kernel
  have e2 : ∃ g' ∈ fixLarge "mixed" [h], ∃ n ∈ g'.term.sourceAddress, n.parent = "src_a10" ∧ n.addr / 2 ^ 120 = 0x30 := by
    decide +kernel
  obtain ⟨g', h1, n, h2, h3, h4⟩ := e1
  obtain ⟨h', h5, m, h6, h7, h8⟩ := e2
  exact ⟨g, h, g', h', n, m, by decide, h1, h5, h2, h6, h3.trans h7.symm, fun e => by rw [e, h8] at h4; cases h4⟩

/-- The only policy of the output; for concrete cases. -/
def srxOnly (fs : List Srx.Filter) : Option (List Then) :=
  match Srx.output fs with
  | .ok ⟨_, [⟨_, _, [q]⟩], _⟩ => some q.thens
  | _ => none

theorem srx_only {fs : List Srx.Filter} {l : List Then} (h : srxOnly fs = some l) : ∃ o b q, Srx.output fs = .ok o ∧ o.blocks = [b] ∧ b.policies = [q] ∧ q.thens = l := by
  unfold srxOnly at h
  split at h
  next e => cases h; exact ⟨_, _, _, e, rfl, rfl, rfl⟩
  · cases h

/-- C101: with `expresspath`, sessions that are permitted are logged when they begin, not when they end, and the tunnel of
the term is lost. -/
theorem C101_refuted_expresspath : ∃ fs o b q t, SrxAccepted fs ∧ Srx.output fs = .ok o ∧ o.blocks = [b] ∧ b.policies = [q] ∧ q.thens = [t] ∧
    (∃ f ∈ fs, ∃ g ∈ f.terms, g.vpn = some ("tunnel", "") ∧ g.term.action = ["accept"] ∧ g.term.logging = ["true"]) ∧ t.vpn = none ∧ t.logs = ["session-init"] :=
  let g : STerm := { term := { srxYes with logging := ["true"] }, vpn := some ("tunnel", "") }
  let fs : List Srx.Filter := [{ fromZone := "trust", toZone := "untrust", options := ["expresspath"], terms := [g] }]
  have ⟨o, b, q, h1, h2, h3, h4⟩ := srx_only (fs := fs) (l := [{ action := "services-offload", logs := ["session-init"] }]) (by decide +kernel)
  ⟨fs, o, b, q, _, by decide +kernel, h1, h2, h3, h4, ⟨_, List.mem_singleton.2 rfl, g, List.mem_singleton.2 rfl, rfl, rfl, rfl⟩, rfl, rfl⟩

/-- C101: `logging:: disable` turns logging on. -/
theorem C101_refuted_disable : ∃ fs o b q t, SrxAccepted fs ∧ Srx.output fs = .ok o ∧ o.blocks = [b] ∧ b.policies = [q] ∧ q.thens = [t] ∧
    (∃ f ∈ fs, ∃ g ∈ f.terms, g.term.logging = ["disable"]) ∧ t.logs = ["session-close"] :=
  let g : STerm := { term := { srxYes with logging := ["disable"] } }
  let fs : List Srx.Filter := [{ fromZone := "trust", toZone := "untrust", terms := [g] }]
  have ⟨o, b, q, h1, h2, h3, h4⟩ := srx_only (fs := fs) (l := [{ action := "permit", logs := ["session-close"] }]) (by decide +kernel)
  ⟨fs, o, b, q, _, by decide +kernel, h1, h2, h3, h4, ⟨_, List.mem_singleton.2 rfl, g, List.mem_singleton.2 rfl, rfl⟩, rfl⟩

/-! ### concrete cases -/

/-- A side of a term: its filter, the term, the suffix of the token for what is left, the addresses and those excluded. -/
abbrev SrxSide := Srx.Filter × STerm × String × List Net × List Net

/-- The addresses used on the side. -/
def sideUses (s : SrxSide) : String → Ver → Nat → Prop := Uses s.1 s.2.1 s.2.2.1 s.2.2.2.1 s.2.2.2.2

/-- The tokens of the side. -/
def sideTokens (s : SrxSide) : List String :=
  if s.2.2.2.2 = [] then s.2.2.2.1.map Net.parent else [String.ofList (s.2.1.term.name.map Char.toUpper) ++ s.2.2.1]

/-- All sides. -/
def srxSides (fs : List Srx.Filter) : List SrxSide :=
  fs.flatMap fun f => f.terms.flatMap fun g =>
    [(f, g, "_SRC_EXCLUDE", g.term.sourceAddress, g.term.sourceAddressExclude),
     (f, g, "_DST_EXCLUDE", g.term.destinationAddress, g.term.destinationAddressExclude)]

/-- Common tokens have the same networks. -/
def SideOk (a b : SrxSide) : Prop :=
  ∀ t ∈ sideTokens a, t ∈ sideTokens b → a.2.2.2.2 = [] ∧ b.2.2.2.2 = [] ∧
    a.2.2.2.1.filter (fun n => n.parent == t) = b.2.2.2.1.filter (fun n => n.parent == t) ∧ Spec.Srx.Live a.2.1 ∧ Spec.Srx.Live b.2.1 ∧ a.1.options = b.1.options

instance sideOkDec (a b : SrxSide) : Decidable (SideOk a b) := inferInstanceAs (Decidable (∀ t ∈ sideTokens a, _))

theorem uses_token {s : SrxSide} {t : String} {v : Ver} {x : Nat} (h : sideUses s t v x) : t ∈ sideTokens s := by
  obtain ⟨_, _, ⟨he, n, hn, rfl, _⟩ | ⟨he, rfl, _⟩⟩ := h
  · unfold sideTokens
    rw [if_pos he]
    exact List.mem_map_of_mem hn
  · unfold sideTokens
    rw [if_neg he]
    exact List.mem_singleton.2 rfl

theorem side_ok {a b : SrxSide} (h : SideOk a b) {t : String} (ha : ∃ v x, sideUses a t v x) (hb : ∃ v x, sideUses b t v x) (v : Ver) (x : Nat) :
    sideUses a t v x ↔ sideUses b t v x := by
  obtain ⟨_, _, ha⟩ := ha
  obtain ⟨_, _, hb⟩ := hb
  obtain ⟨e1, e2, e, l1, l2, o⟩ := h t (uses_token ha) (uses_token hb)
  have key : ∀ n : Net, (n ∈ a.2.2.2.1 ∧ n.parent = t) ↔ (n ∈ b.2.2.2.1 ∧ n.parent = t) := by
    intro n
    have := congrArg (n ∈ ·) e
    simpa [List.mem_filter] using this
  unfold sideUses Uses
  rw [o]
  simp only [e1, e2, l1, l2, ne_eq, not_true_eq_false, false_and, or_false, true_and]
  refine and_congr_right fun _ => ⟨fun ⟨n, hn, hp, hm⟩ => ?_, fun ⟨n, hn, hp, hm⟩ => ?_⟩
  · obtain ⟨q1, q2⟩ := (key n).1 ⟨hn, hp⟩
    exact ⟨n, q1, q2, hm⟩
  · obtain ⟨q1, q2⟩ := (key n).2 ⟨hn, hp⟩
    exact ⟨n, q1, q2, hm⟩

/-- A sufficient condition that can be computed. -/
theorem coherent_of {fs : List Srx.Filter} (h : (srxSides fs).Pairwise SideOk) : Srx.Coherent fs := by
  have side : ∀ U, Side fs U → ∃ s ∈ srxSides fs, U = sideUses s := by
    rintro U (⟨hf, hg⟩ | ⟨hf, hg⟩)
    · exact ⟨_, List.mem_flatMap.2 ⟨_, hf, List.mem_flatMap.2 ⟨_, hg, List.mem_cons_self⟩⟩, rfl⟩
    · exact ⟨_, List.mem_flatMap.2 ⟨_, hf, List.mem_flatMap.2 ⟨_, hg, List.mem_cons_of_mem _ List.mem_cons_self⟩⟩, rfl⟩
  intro U W hU hW t h1 h2 v x
  obtain ⟨a, ha, rfl⟩ := side U hU
  obtain ⟨b, hb, rfl⟩ := side W hW
  obtain ⟨i, hi, rfl⟩ := List.mem_iff_getElem.1 ha
  obtain ⟨j, hj, rfl⟩ := List.mem_iff_getElem.1 hb
  rw [List.pairwise_iff_getElem] at h
  rcases Nat.lt_trichotomy i j with hij | rfl | hij
  · exact side_ok (h i j hi hj hij) h1 h2 v x
  · exact Iff.rfl
  · exact (side_ok (h j i hj hi hij) h2 h1 v x).symm

/-- A policy between zones with two filters, and a global one: the last refers to a token of the first. -/
def srxGood : List Srx.Filter :=
  [{ fromZone := "trust", toZone := "untrust", options := ["address-book-global"], terms :=
      [{ term := { srxYes with name := "web".toList, sourceAddress := [srxNet (ip4 10 0 0 0 8) "TEN", srxNet (ip6 0x20 8) "SIX"], sourceAddressExclude := [srxNet (ip4 10 1 0 0 16) "LAB"], destinationAddress := [srxNet (ip4 12 0 0 0 8) "WEB", srxNet (ip4 13 0 0 0 8) "WEB"], protocol := ["tcp"], destinationPort := [(80, 80), (443, 443)], logging := ["true"] }, vpn := some ("tunnel", "pair"), counter := true, dscpSet := some "b111000" },
       { term := { srxYes with name := "ping".toList, protocol := ["icmp"], icmpType := ["echo-request", "echo-reply"] } },
       { term := { srxYes with name := "old".toList, protocol := ["tcp"], option := ["tcp-established"] } }] },
   { fromZone := "all", toZone := "all", options := ["address-book-global"], terms :=
      [{ term := { name := "servers".toList, action := ["reject"], destinationAddress := [srxNet (ip4 12 0 0 0 8) "WEB", srxNet (ip4 13 0 0 0 8) "WEB"] } },
       { term := { name := "default".toList, action := ["deny"], logging := ["log-both"] } }] }]

theorem srxGood_fits : ∀ f ∈ srxGood, ∀ g ∈ f.terms, SrxSane g ∧ (Spec.Srx.Live g → SrxFits f g) := by
  intro f hf g hg
  simp only [srxGood, List.mem_cons, List.not_mem_nil, or_false] at hf
  rcases hf with rfl | rfl
  · simp only [List.mem_cons, List.not_mem_nil, or_false] at hg
    rcases hg with rfl | rfl | rfl
    · exact ⟨⟨by decide +kernel, by decide +kernel, by decide +kernel, by decide +kernel, by decide +kernel⟩, fun _ =>
        ⟨by decide +kernel, by decide, rfl, ⟨rfl, rfl, (by decide), (by decide)⟩, rfl, by decide, by decide, .inl (by intro v; cases v <;> decide),
          fun _ => ⟨.v4, 10 * 2 ^ 24, by decide +kernel⟩, fun h => absurd rfl h, (fun _ h => nomatch h), fun h => absurd rfl h⟩⟩
    · exact ⟨⟨by decide +kernel, by decide +kernel, by decide +kernel, by decide +kernel, by decide +kernel⟩, fun _ =>
        ⟨by decide +kernel, by decide, rfl, ⟨rfl, rfl, (by decide), (by decide)⟩, rfl, by decide, by decide, .inl (by intro v; cases v <;> decide),
          fun h => absurd rfl h, fun h => absurd rfl h, fun h => absurd rfl h, fun h => absurd rfl h⟩⟩
    · exact ⟨⟨by decide +kernel, by decide +kernel, by decide +kernel, by decide +kernel, by decide +kernel⟩, fun h => absurd h (by decide)⟩
  · simp only [List.mem_cons, List.not_mem_nil, or_false] at hg
    rcases hg with rfl | rfl
    all_goals exact ⟨⟨by decide +kernel, by decide +kernel, by decide +kernel, by decide +kernel, by decide +kernel⟩, fun _ =>
        ⟨by decide +kernel, by decide, rfl, ⟨rfl, rfl, (by decide), (by decide)⟩, rfl, by decide, by decide, .inl (by intro v; cases v <;> decide),
          fun h => absurd rfl h, fun h => absurd rfl h, fun h => absurd rfl h, fun h => absurd rfl h⟩⟩

theorem srxGood_same : ∀ f ∈ srxGood, ∀ f' ∈ srxGood, ∀ v, Spec.Srx.FamilyIs f'.options v ↔ Spec.Srx.FamilyIs f.options v := by
  have : ∀ f ∈ srxGood, f.options = ["address-book-global"] := by
    intro f hf
    simp only [srxGood, List.mem_cons, List.not_mem_nil, or_false] at hf
    rcases hf with rfl | rfl <;> rfl
  intro f hf f' hf' v
  rw [this f hf, this f' hf']

/-- A packet to a server. -/
def srxWeb : Packet := { srxPkt 0x0a000001 443 with dst := 0x0d000001 }

/-- C96 for a packet the first term permits. -/
example : ∃ o, Srx.output srxGood = .ok o ∧ (∀ u, Spec.Srx.Does o srxWeb u ↔ u = "permit") ∧
    ∀ p, SrxReal p → ∀ v, Spec.Srx.Does o p v ↔ Spec.Srx.Decides srxGood p v := by
  obtain ⟨o, h1, h2, _⟩ := srx_case (fs := srxGood) (p := srxWeb) (v := "permit") (w := "permit") (by decide +kernel)
  exact ⟨o, h1, h2, fun p hp v => C96_policy_partial h1 srxGood_fits srxGood_same (coherent_of (by decide +kernel)) hp v⟩

/-- One from an excluded address, which a global term rejects, and one of other zones, which is denied. -/
example : SrxCase srxGood { srxWeb with src := 0x0a010001 } "reject" "reject" ∧
    SrxCase srxGood { srxWeb with dst := 0x0e000001, srcZone := "dmz" } "deny" "deny" :=
  ⟨srx_case (by decide +kernel), srx_case (by decide +kernel)⟩

/-- C97 and C98 for this policy: it has a global address book with sets, applications and references to them. -/
example : ∃ o b q, Srx.output srxGood = .ok o ∧ b ∈ o.blocks ∧ q ∈ b.policies ∧ q.src = some ["WEB_SRC_EXCLUDE"] ∧ q.dst = some ["WEB"] ∧
    q.app = some "web".toList ∧ o.books.map (fun b => b.sets.map Prod.fst) = [["WEB", "WEB_SRC_EXCLUDE"]] ∧ (∃ d ∈ defs o.apps, NameIs d "web-app".toList) ∧
    (b.policies.map SPolicy.name).Nodup := by
  have key : (match Srx.output srxGood with
      | .ok o => o.blocks.any fun b => b.policies.any fun q => decide (q.src = some ["WEB_SRC_EXCLUDE"] ∧ q.dst = some ["WEB"] ∧ q.app = some "web".toList ∧
          o.books.map (fun b => b.sets.map Prod.fst) = [["WEB", "WEB_SRC_EXCLUDE"]])
      | .error _ => false) = true := by decide +kernel
  split at key
  next o e =>
    obtain ⟨b, hb, key⟩ := List.any_eq_true.1 key
    obtain ⟨q, hq, key⟩ := List.any_eq_true.1 key
    obtain ⟨h1, h2, h3, h4⟩ := of_decide_eq_true key
    exact ⟨o, b, q, e, hb, hq, h1, h2, h3, h4, C98_referred e hb hq h3, C98_policies e hb⟩
  · cases key

/-- C99 for this policy. -/
example : ∃ o, Srx.output srxGood = .ok o ∧ Balanced (lines o) ∧ 60 < (lines o).length := by
  have key : (match Srx.output srxGood with
      | .ok o => decide (60 < (lines o).length)
      | .error _ => false) = true := by decide +kernel
  split at key
  next o e =>
    refine ⟨o, e, C99_balanced_partial e ?_ ?_, of_decide_eq_true key⟩
    · intro f hf g hg hl
      obtain ⟨w, _, hw⟩ := ((srxGood_fits f hf g hg).2 hl).action
      exact ⟨w, hw⟩
    · intro f hf g hg _
      revert f g
      decide +kernel
  · cases key

/-- C100 for a term with too many addresses: it is split into four. -/
example : (fixLarge "mixed" [{ term := { srxYes with sourceAddress := srxMany 10 600, destinationAddress := srxMany 11 600 } }]).length = 4 := by
  decide +kernel

/-- C101 for a policy with a tunnel, a counter and a log. -/
example : ∃ o b q t, Srx.output srxGood = .ok o ∧ b ∈ o.blocks ∧ q ∈ b.policies ∧ q.thens = [t] ∧ t.vpn = some ("tunnel", "pair") ∧ t.count = true ∧
    t.logs = ["session-close"] := by
  have key : (match Srx.output srxGood with
      | .ok o => o.blocks.any fun b => b.policies.any fun q => q.thens.any fun t => decide (q.thens = [t] ∧ t.vpn = some ("tunnel", "pair") ∧ t.count = true ∧
          t.logs = ["session-close"])
      | .error _ => false) = true := by decide +kernel
  split at key
  next o e =>
    obtain ⟨b, hb, key⟩ := List.any_eq_true.1 key
    obtain ⟨q, hq, key⟩ := List.any_eq_true.1 key
    obtain ⟨t, _, key⟩ := List.any_eq_true.1 key
    exact ⟨o, b, q, t, e, hb, hq, of_decide_eq_true key⟩
  · cases key

end Verif.Props
