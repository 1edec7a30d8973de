import Verif.Lemmas.MsmpcApp
import Verif.Props.Cisco
import Verif.Lemmas.Prefix
import Verif.Lemmas.FirstMatch
import Verif.Lemmas.PolicyBuild

/-!
C157 to C159: what the terms of capirca/lib/junipermsmpc.py decide, refer to and carry.
-/

namespace Verif.Props
open Verif Verif.Spec Policy Aclgenerator Nacaddr
open Verif.Lemmas (first_blocks first_nil)
open Verif.Lemmas.MsmpcL
open Verif.Srx (STerm)
open Verif.Msmpc (Rule Out App AppDef Done translateFilter appsFor printed render piece suffixes otherIcmp gone side has
  actionsOf elsewhere pieceName change entry busy bodies number)
open Verif.Spec.Msmpc (AddrHits PrefixHits ProtoIs DefHits SetHits RuleHits Hits Does FamilyIs DirectionIs Decides Split Carries SameNet
  Void Spared Rendered Defined Fine TypesOk Seen nets ruleNames)

/-- What is known about a filter and its group. -/
structure MsmpcMade (f : Msmpc.Filter) (o : Msmpc.Group) (rest : List String) (type : String) (x : List (Bool × Msmpc.Kept) × List App)
    (bs : List (STerm × Option (Bool × Msmpc.Kept))) : Prop where
  head : f.options = o.name :: rest
  fine : Fine rest
  kind : type = (rest.find? fun s => s ∈ fams).getD "mixed"
  direction : DirectionIs rest o.direction
  looped : Looped o.name.toList [] [] f.terms x bs
  terms : Msmpc.collect (render type) x.1 = .ok o.terms

/-- Its applications are its own. -/
structure MsmpcOwn (o : Msmpc.Group) (apps : List App) : Prop where
  defs : o.apps = (printed apps).flatMap Msmpc.defsOf
  sets : o.sets = (printed apps).map fun a => (a.name ++ "-app".toList, (Msmpc.defsOf a).map AppDef.name)

theorem apps_for {ds : List Done} (hn : (ds.map Done.name).Nodup) {d : Done} (hd : d ∈ ds) : appsFor ds d.name = d.apps := by
  unfold appsFor
  have : (ds.filter fun e => e.name == d.name) = [d] := by
    have := filter_one (f := Done.name) hn hd
    rw [← this]
    apply List.filter_congr
    intro e _
    by_cases h : e.name = d.name <;> simp [h]
  rw [this]
  rfl

theorem msmpc_made {fs : List Msmpc.Filter} {gs : List Msmpc.Group} (h : Msmpc.output fs = .ok gs) {i : Nat} {f : Msmpc.Filter}
    {o : Msmpc.Group} (hf : (fs.filter Msmpc.Filter.here)[i]? = some f) (ho : gs[i]? = some o) :
    ∃ rest type x bs, MsmpcMade f o rest type x bs ∧
      (((fs.filter Msmpc.Filter.here).map fun f => f.options.head?).Nodup → MsmpcOwn o x.2) := by
  unfold Msmpc.output at h
  obtain ⟨ds, hds, h⟩ := bind_ok h
  obtain ⟨l1, g1⟩ := PolicyText.listM_get hds
  obtain ⟨l2, g2⟩ := PolicyText.listM_get h
  obtain ⟨hi, rfl⟩ := List.getElem?_eq_some_iff.1 hf
  obtain ⟨hj, rfl⟩ := List.getElem?_eq_some_iff.1 ho
  have e1 := g1 i hi (by omega)
  have e2 := g2 i (by omega) hj
  have hd : ∀ {f : Msmpc.Filter} {d : Done}, translateFilter f = .ok d → ∃ rest x, f.options = d.name :: rest ∧ Fine rest ∧
      d.type = (rest.find? fun s => s ∈ fams).getD "mixed" ∧ DirectionIs rest d.direction ∧
      Msmpc.termsLoop d.name.toList [] [] f.terms = .ok x ∧ d.terms = x.1 ∧ d.apps = x.2 := by
    intro f d h
    unfold translateFilter at h
    obtain ⟨hd, h1, h⟩ := bind_ok h
    obtain ⟨x, h2, h⟩ := bind_ok h
    cases h
    obtain ⟨rest, r1, r2, r3, r4⟩ := header_iff.1 h1
    refine ⟨rest, x, r1, r2, r3, ?_, h2, rfl, rfl⟩
    rw [r4]
    exact (Lemmas.MsmpcL.header_says r2).2.2
  obtain ⟨rest, x, d1, d2, d3, d4, d5, d6, d7⟩ := hd e1
  obtain ⟨bs, hbs⟩ := loop_ok d5 List.nodup_nil
  unfold Msmpc.group at e2
  obtain ⟨ts, h3, e2⟩ := bind_ok e2
  have e2 := Except.ok.inj e2
  refine ⟨rest, (ds[i]'(by omega)).type, x, bs, ?_, ?_⟩
  · rw [← e2]
    refine ⟨d1, d2, d3, d4, hbs, ?_⟩
    rw [← d6]
    exact h3
  · intro hn
    have : (ds.map Done.name).Nodup := by
      have e : ((fs.filter Msmpc.Filter.here).map fun f => f.options.head?) = (ds.map Done.name).map some := by
        apply List.ext_getElem
        · simp [l1]
        · intro k h1 h2
          simp only [List.getElem_map]
          have hk : k < (fs.filter Msmpc.Filter.here).length := by simpa using h1
          obtain ⟨rest, _, d1, _⟩ := hd (g1 k hk (by omega))
          rw [d1]
          rfl
      rw [e] at hn
      unfold List.Nodup at hn ⊢
      rw [List.pairwise_map] at hn
      exact hn.imp fun h e => h (congrArg some e)
    rw [← e2, ← d7, ← apps_for this (List.getElem_mem (by omega))]
    exact ⟨rfl, rfl⟩

/-! ### one term -/

theorem elsewhere_iff {t : Term} : elsewhere t = false ↔ (t.platform = [] ∨ "msmpc" ∈ t.platform) ∧ "msmpc" ∉ t.platformExclude := by
  unfold elsewhere
  rw [Bool.or_eq_false_iff]
  apply and_congr
  · cases h : t.platform with
    | nil => simp
    | cons a l => simp only [List.isEmpty_cons, Bool.not_false, Bool.true_and, Bool.not_eq_false', List.contains_iff_mem]; simp
  · cases h : t.platformExclude with
    | nil => simp
    | cons a l => simp only [List.isEmpty_cons, Bool.not_false, Bool.true_and, ← List.contains_iff_mem, Bool.not_eq_true]

/-- What is printed for a term that is kept. -/
theorem msmpc_kept {o : Msmpc.Group} {rest : List String} {type : String} {f : Msmpc.Filter} {x : List (Bool × Msmpc.Kept) × List App}
    {bs : List (STerm × Option (Bool × Msmpc.Kept))} (m : MsmpcMade f o rest type x bs) :
    ∃ cs : List (STerm × List Out), cs.map Prod.fst = f.terms ∧ o.terms = cs.flatMap Prod.snd ∧
      ∀ c ∈ cs, (¬ Spec.Msmpc.Kept c.1 ∧ c.2 = []) ∨ (Spec.Msmpc.Kept c.1 ∧ ∃ set types,
        normalizeIcmpTypes c.1.term.icmpType (change c.1.term).protocol (Msmpc.icmpAf (change c.1.term).protocol) = .ok types ∧
        { entry o.name.toList (change c.1.term) c.1.timeout types with name := set } ∈ x.2 ∧
        render type (c.1.term.option.contains "inactive", ⟨{ c.1 with term := change c.1.term }, set⟩) = .ok c.2) := by
  have ht := m.terms
  rw [m.looped.kept] at ht
  obtain ⟨cs, c1, c2, c3⟩ := collect_blocks ht
  refine ⟨cs, by rw [c1, m.looped.terms], c2, fun c hc => ?_⟩
  rcases c3 c hc with ⟨h1, h2⟩ | ⟨k, h1, h2⟩
  · cases m.looped.each _ h1 with
    | skipped h =>
      refine .inl ⟨?_, h2⟩
      rintro ⟨k1, k2, _, _, k3, k4⟩
      rcases h with h | h | h | h
      · rw [k2] at h; cases h
      · exact k3 h
      · exact k4 h
      · rw [k1] at h; cases h
  · have hb := m.looped.each _ h1
    dsimp only at hb
    cases hb with
    | @kept set types b1 b2 b3 b4 b5 b6 =>
      by_cases he : elsewhere c.1.term = true
      · left
        constructor
        · rintro ⟨_, _, k1, k2, _⟩
          have := elsewhere_iff.2 ⟨k1, k2⟩
          rw [he] at this
          cases this
        · unfold render at h2
          have he' : elsewhere (change c.1.term) = true := he
          dsimp only at h2
          rw [if_pos he'] at h2
          exact (Except.ok.inj h2).symm
      · right
        obtain ⟨k1, k2⟩ := elsewhere_iff.1 (by simpa using he : elsewhere c.1.term = false)
        exact ⟨⟨b4, b1, k1, k2, b2, b3⟩, set, types, b5, b6, h2⟩

/-- The rule that is printed for a family. -/
def msmpcRule (g : STerm) (set : Str) (dup : Bool) (v : Ver) (as : List String) : Rule :=
  { inactive := g.term.option.contains "inactive"
    name := pieceName dup g.term.name v
    src := (side v g.term.sourceAddress g.term.sourceAddressExclude).1
    srcExcept := (side v g.term.sourceAddress g.term.sourceAddressExclude).2
    dst := (side v g.term.destinationAddress g.term.destinationAddressExclude).1
    dstExcept := (side v g.term.destinationAddress g.term.destinationAddressExclude).2
    srcPrefix := g.term.sourcePrefix, srcPrefixExcept := g.term.sourcePrefixExcept
    dstPrefix := g.term.destinationPrefix, dstPrefixExcept := g.term.destinationPrefixExcept
    appSet := if g.term.sourcePort.isEmpty && g.term.destinationPort.isEmpty && g.term.icmpType.isEmpty && g.term.protocol.isEmpty then none
      else some (set ++ "-app".toList)
    actions := as
    syslog := !g.term.logging.isEmpty && !g.term.logging.contains "disable" }

theorem app_test (t : Term) : ((change t).sourcePort.isEmpty && (change t).destinationPort.isEmpty && (change t).icmpType.isEmpty &&
    (change t).protocol.isEmpty) = (t.sourcePort.isEmpty && t.destinationPort.isEmpty && t.icmpType.isEmpty && t.protocol.isEmpty) := by
  have e1 : (change t).sourcePort = t.sourcePort := rfl
  have e2 : (change t).icmpType = t.icmpType := rfl
  have e3 : (change t).protocol = t.protocol.map number := rfl
  rw [e1, e2, e3, changed_ports]
  cases hp : t.protocol with
  | nil => simp
  | cons a l => simp

theorem msmpc_other_icmp {type : String} {t : Term} {v : Ver} : otherIcmp type (change t) v = true ↔
    (if type = "mixed" then ¬ ("icmp" ∈ t.protocol ∧ "icmpv6" ∈ t.protocol) ∧ has .v4 t = true ∧ has .v6 t = true ∧
      (("icmp" ∈ t.protocol ∧ v = .v6) ∨ ("icmpv6" ∈ t.protocol ∧ v = .v4))
    else ("icmpv6" ∈ t.protocol ∧ "icmp" ∉ t.protocol ∧ v = .v4) ∨ ("icmp" ∈ t.protocol ∧ "icmpv6" ∉ t.protocol ∧ v = .v6)) := by
  have h : ∀ w ∈ Msmpc.supported, (change t).protocol.contains w = decide (w ∈ t.protocol) := by
    intro w hw
    rw [Bool.eq_iff_iff, List.contains_iff_mem, decide_eq_true_iff]
    show w ∈ t.protocol.map number ↔ _
    rw [List.mem_map]
    constructor
    · rintro ⟨s, hs, e⟩
      rw [number_is hw] at e
      exact e ▸ hs
    · intro hs
      exact ⟨w, hs, (number_is hw).2 rfl⟩
  have hh : ∀ v, has v (change t) = has v t := fun _ => rfl
  unfold otherIcmp
  dsimp only
  rw [h "icmp" (by decide), h "icmpv6" (by decide), hh, hh]
  split
  · by_cases a : "icmp" ∈ t.protocol <;> by_cases b : "icmpv6" ∈ t.protocol <;> simp [a, b, and_assoc]
  · simp [and_assoc]

/-- What is printed for a family. -/
theorem piece_is {type : String} {dup : Bool} {g : STerm} {set : Str} {v : Ver} {os : List Out}
    (h : piece type (g.term.option.contains "inactive") dup ⟨{ g with term := change g.term }, set⟩ v = .ok os) :
    ((otherIcmp type (change g.term) v = true ∨ gone v g.term.sourceAddress g.term.sourceAddressExclude = true ∨
      gone v g.term.destinationAddress g.term.destinationAddressExclude = true) ∧ os = []) ∨
    (otherIcmp type (change g.term) v = false ∧ gone v g.term.sourceAddress g.term.sourceAddressExclude = false ∧
      gone v g.term.destinationAddress g.term.destinationAddressExclude = false ∧
      ∃ as, actionsOf g.term.action = .ok as ∧ os = [.term (msmpcRule g set dup v as)]) := by
  unfold piece at h
  dsimp only at h
  split at h
  next h1 => exact .inl ⟨.inl h1, (Except.ok.inj h).symm⟩
  next h1 =>
    split at h
    next h2 => exact .inl ⟨.inr (by simpa [change] using h2), (Except.ok.inj h).symm⟩
    next h2 =>
      have h2' : gone v g.term.sourceAddress g.term.sourceAddressExclude = false ∧
          gone v g.term.destinationAddress g.term.destinationAddressExclude = false := by
        rw [Bool.or_eq_true, not_or, Bool.not_eq_true, Bool.not_eq_true] at h2
        exact h2
      obtain ⟨as, h3, h⟩ := bind_ok h
      refine .inr ⟨by simpa using h1, h2'.1, h2'.2, as, h3, ?_⟩
      rw [← Except.ok.inj h]
      unfold msmpcRule
      rw [← app_test g.term]
      rfl

theorem actions_of : ∀ {as bs : List String}, actionsOf as = .ok bs → bs.length = as.length ∧
    ∀ (i : Nat) a b, as[i]? = some a → bs[i]? = some b → (a, b) ∈ Spec.Msmpc.actionWords
  | [], bs, h => by
    cases h
    exact ⟨rfl, fun i a b h => by simp at h⟩
  | x :: xs, bs, h => by
    unfold actionsOf at h
    split at h
    · cases h
    next y hy =>
      obtain ⟨ys, h1, h⟩ := bind_ok h
      cases h
      obtain ⟨l, g⟩ := actions_of h1
      refine ⟨by simp [l], fun i a b ha hb => ?_⟩
      cases i with
      | zero =>
        simp only [List.getElem?_cons_zero, Option.some.injEq] at ha hb
        subst ha; subst hb
        exact Cisco.mem_of_lookup' hy
      | succ i => exact g i a b (by simpa using ha) (by simpa using hb)

/-! ### decisions -/

/-- The terms about which decisions are stated; `restrict-address-family`, options and ports of SCTP are not looked at by the generator,
and exclusions only work as exceptions from addresses. -/
structure MsmpcFits (p : Packet) (g : STerm) : Prop where
  keywords : initCheck Msmpc.tables [([Msmpc.tables.platform], [kterm g.term])] = .ok ()
  sane : sanityCheck g.term = .ok ()
  untagged : Untagged g.term
  family : FamilyOk p.ver g.term
  option : g.term.option = []
  action : ∃ u ∈ ["accept", "deny", "reject"], g.term.action = [u]
  src : ∀ n ∈ g.term.sourceAddress ++ g.term.sourceAddressExclude, WF n
  dst : ∀ n ∈ g.term.destinationAddress ++ g.term.destinationAddressExclude, WF n
  srcExclude : g.term.sourceAddressExclude ≠ [] → g.term.sourceAddress ≠ []
  dstExclude : g.term.destinationAddressExclude ≠ [] → g.term.destinationAddress ≠ []
  srcNested : ∀ n ∈ g.term.sourceAddress, ∀ e ∈ g.term.sourceAddressExclude, ¬ StrictSub n e
  dstNested : ∀ n ∈ g.term.destinationAddress, ∀ e ∈ g.term.destinationAddressExclude, ¬ StrictSub n e
  srcPrefix : g.term.sourcePrefixExcept ≠ [] → g.term.sourcePrefix ≠ []
  dstPrefix : g.term.destinationPrefixExcept ≠ [] → g.term.destinationPrefix ≠ []
  protos : ∀ s ∈ g.term.protocol, s ∈ iana.map Prod.fst
  icmp : "icmp" ∈ g.term.protocol ∨ "icmpv6" ∈ g.term.protocol → ∀ s ∈ g.term.protocol, s = "icmp" ∨ s = "icmpv6"
  ports : g.term.sourcePort ≠ [] ∨ g.term.destinationPort ≠ [] →
    g.term.protocol ≠ [] ∧ ∀ s ∈ g.term.protocol, s = "tcp" ∨ s = "udp"

theorem msmpc_tables_ok : ∀ e ∈ Msmpc.tables.subTokens, e.1 ∈ Msmpc.tables.tokens := by decide

theorem msmpc_prefix {inc exc : List String} (h : exc ≠ [] → inc ≠ []) {f : String → Bool} : PrefixHits inc exc f ↔ PrefixOk inc exc f := by
  unfold PrefixHits PrefixOk
  constructor
  · rintro (⟨rfl, rfl⟩ | ⟨h1, h2⟩)
    · exact ⟨.inl rfl, by simp⟩
    · exact ⟨.inr h1, h2⟩
  · rintro ⟨rfl | h1, h2⟩
    · exact .inl ⟨rfl, Classical.byContradiction fun hc => h hc rfl⟩
    · exact .inr ⟨h1, h2⟩

theorem msmpc_matches {p : Packet} {g : STerm} (fit : MsmpcFits p g) (hk : Spec.Msmpc.Kept g) : Matches g.term p ↔
    (AddrMatch g.term.sourceAddress g.term.sourceAddressExclude p.ver p.src ∧
      AddrMatch g.term.destinationAddress g.term.destinationAddressExclude p.ver p.dst) ∧
    (OneOf g.term.protocol p.proto ∧ PortMatch g.term.sourcePort p.sport ∧ PortMatch g.term.destinationPort p.dport ∧
      OneOf g.term.icmpType p.icmpType ∧ OneOf g.term.icmpCode p.icmpCode) ∧
    PrefixHits g.term.sourcePrefix g.term.sourcePrefixExcept p.inSrcPrefix ∧
    PrefixHits g.term.destinationPrefix g.term.destinationPrefixExcept p.inDstPrefix := by
  have ha : Active Msmpc.tables.platform (kterm g.term) := ⟨hk.2.2.1, hk.2.2.2.1⟩
  have bas : Basic (noPrefix g.term) := basic_of_prefix msmpc_tables_ok rfl (by decide) ha fit.keywords
  have h1 : g.term.protocolExcept = [] :=
    Cisco.wordsVal_falsy (unset (g := Msmpc.tables) msmpc_tables_ok rfl ha fit.keywords "protocol_except" (by simp [attrsOf]) (by decide))
  rw [matches_prefix bas fit.untagged fit.family, msmpc_prefix fit.srcPrefix, msmpc_prefix fit.dstPrefix]
  unfold MatchProto
  rw [h1, fit.option]
  simp only [List.not_mem_nil, not_false_eq_true, and_true, false_implies, implies_true, and_assoc]

/-- A rule does to a packet what its term wants, if its addresses are those of the term. -/
theorem rule_wants {o : Msmpc.Group} {apps : List App} (own : MsmpcOwn o apps) (hn : (apps.map App.name).Nodup) {g : STerm}
    (hk : Spec.Msmpc.Kept g) {p : Packet} (fit : Spec.Msmpc.Live g → MsmpcFits p g) {filter set : Str} {types : List (Option Nat)}
    (ht : normalizeIcmpTypes g.term.icmpType (change g.term).protocol (Msmpc.icmpAf (change g.term).protocol) = .ok types)
    (hm : { entry filter (change g.term) g.timeout types with name := set } ∈ apps)
    (hd : p.proto = "tcp" ∨ p.proto = "udp" → 1 ≤ p.dport ∧ p.dport ≤ 65535) {dup : Bool} {v : Ver} {as : List String}
    (has : actionsOf g.term.action = .ok as)
    (h1 : Spec.Msmpc.Live g → (AddrHits (side v g.term.sourceAddress g.term.sourceAddressExclude).1
      (side v g.term.sourceAddress g.term.sourceAddressExclude).2 p.ver p.src ↔
      AddrMatch g.term.sourceAddress g.term.sourceAddressExclude p.ver p.src))
    (h2 : Spec.Msmpc.Live g → (AddrHits (side v g.term.destinationAddress g.term.destinationAddressExclude).1
      (side v g.term.destinationAddress g.term.destinationAddressExclude).2 p.ver p.dst ↔
      AddrMatch g.term.destinationAddress g.term.destinationAddressExclude p.ver p.dst)) (w : String) :
    Hits o p (.term (msmpcRule g set dup v as)) w ↔ Spec.Msmpc.Wants p g w := by
  by_cases hi : "inactive" ∈ g.term.option
  · refine iff_of_false ?_ fun h => h.1.2 hi
    rintro ⟨r, e, hr, _⟩
    cases e
    have := hr.active
    rw [show (msmpcRule g set dup v as).inactive = g.term.option.contains "inactive" from rfl, List.contains_iff_mem.2 hi] at this
    cases this
  have hl : Spec.Msmpc.Live g := ⟨hk, hi⟩
  have ft := fit hl
  obtain ⟨u, hu, hua⟩ := ft.action
  have hact : ∃ b, as = [b] ∧ ∀ w, (b, w) ∈ Spec.Msmpc.words ↔ w = u := by
    rw [hua] at has
    simp only [List.mem_cons, List.not_mem_nil, or_false] at hu
    rcases hu with rfl | rfl | rfl
    · exact ⟨"accept", (Except.ok.inj has).symm, fun w => by simp [Spec.Msmpc.words]⟩
    · exact ⟨"discard", (Except.ok.inj has).symm, fun w => by simp [Spec.Msmpc.words]⟩
    · exact ⟨"reject", (Except.ok.inj has).symm, fun w => by simp [Spec.Msmpc.words]⟩
  obtain ⟨b, rfl, hb⟩ := hact
  have happ : Spec.Flat.IfSet (msmpcRule g set dup v [b]).appSet (SetHits o p) ↔
      (OneOf g.term.protocol p.proto ∧ PortMatch g.term.sourcePort p.sport ∧ PortMatch g.term.destinationPort p.dport ∧
        OneOf g.term.icmpType p.icmpType ∧ OneOf g.term.icmpCode p.icmpCode) := by
    show Spec.Flat.IfSet (if g.term.sourcePort.isEmpty && g.term.destinationPort.isEmpty && g.term.icmpType.isEmpty && g.term.protocol.isEmpty
      then none else some (set ++ "-app".toList)) _ ↔ _
    by_cases hp : g.term.protocol = []
    · have e1 : g.term.sourcePort = [] := Classical.byContradiction fun h => (ft.ports (.inl h)).1 hp
      have e2 : g.term.destinationPort = [] := Classical.byContradiction fun h => (ft.ports (.inr h)).1 hp
      have e3 : g.term.icmpType = [] := by
        rcases types_spec ht with h | ⟨_, _, _, h, _⟩
        · exact h.1
        · rw [hp] at h; cases h
      have e4 : g.term.icmpCode = [] := Classical.byContradiction fun h => sane_codes ft.sane h e3
      rw [e1, e2, e3, e4, hp]
      exact iff_of_true Spec.Flat.ifSet_none ⟨.inl rfl, .inl rfl, .inl rfl, .inl rfl, .inl rfl⟩
    · rw [if_neg (by simp [hp]), Spec.Flat.ifSet_some]
      have hb : busy { entry filter (change g.term) g.timeout types with name := set } = true := by
        have : (entry filter (change g.term) g.timeout types).protos ≠ [] := by
          show Msmpc.renameIcmp (g.term.protocol.map number) ≠ []
          rw [Ne, rename_nil]
          simpa using hp
        unfold busy
        simp [this]
      rw [set_hits hn own.defs own.sets hm hb, bodies_hit ht ft.protos (fun h => (ft.ports h).2) (sane_codes ft.sane) hp hd]
      unfold ServiceOk
      constructor
      · rintro ⟨a, r⟩; exact ⟨.inr a, r⟩
      · rintro ⟨a, r⟩; exact ⟨a.resolve_left hp, r⟩
  constructor
  · rintro ⟨r, e, hr, w', hw, hw'⟩
    cases e
    have e : w' = b := by
      injection hw with e _
      exact e.symm
    subst e
    have := (hb w).1 hw'
    subst this
    refine ⟨hl, (msmpc_matches ft hk).2 ⟨⟨(h1 hl).1 hr.src, (h2 hl).1 hr.dst⟩, happ.1 hr.app, hr.srcPrefix, hr.dstPrefix⟩, hua, hu⟩
  · rintro ⟨_, hm, hw, _⟩
    rw [hua] at hw
    cases hw
    obtain ⟨⟨a1, a2⟩, a3, a4, a5⟩ := (msmpc_matches ft hk).1 hm
    refine ⟨_, rfl, ⟨?_, (h1 hl).2 a1, (h2 hl).2 a2, a4, a5, happ.2 a3⟩, b, rfl, (hb _).2 rfl⟩
    show g.term.option.contains "inactive" = false
    simpa using hi

theorem has_iff {v : Ver} {t : Term} : has v t = true ↔ ∃ n ∈ nets t, n.ver = v := by
  have h : ∀ l : List Net, (!(Msmpc.ofVersion v l).isEmpty) = true ↔ ∃ n ∈ l, n.ver = v := by
    intro l
    rw [Bool.not_eq_true', List.isEmpty_eq_false_iff]
    constructor
    · intro h
      obtain ⟨n, hn⟩ := List.exists_mem_of_ne_nil _ h
      exact ⟨n, mem_ofVersion.1 hn⟩
    · rintro ⟨n, h1, h2⟩
      exact List.ne_nil_of_mem (mem_ofVersion.2 ⟨h1, h2⟩)
  unfold has nets
  rw [Bool.or_eq_true, Bool.or_eq_true, Bool.or_eq_true, h, h, h, h]
  simp only [List.mem_append]
  constructor
  · rintro (((⟨n, hn, e⟩ | ⟨n, hn, e⟩) | ⟨n, hn, e⟩) | ⟨n, hn, e⟩)
    · exact ⟨n, .inl (.inl (.inl hn)), e⟩
    · exact ⟨n, .inl (.inl (.inr hn)), e⟩
    · exact ⟨n, .inl (.inr hn), e⟩
    · exact ⟨n, .inr hn, e⟩
  · rintro ⟨n, ((hn | hn) | hn) | hn, e⟩
    · exact .inl (.inl (.inl ⟨n, hn, e⟩))
    · exact .inl (.inl (.inr ⟨n, hn, e⟩))
    · exact .inl (.inr ⟨n, hn, e⟩)
    · exact .inr ⟨n, hn, e⟩

/-- The families a term is printed for. -/
theorem suffixes_is {rest : List String} {type : String} (hf : Fine rest) (ht : type = (rest.find? fun s => s ∈ fams).getD "mixed") (t : Term) :
    (Split rest t ∧ suffixes type t = [.v4, .v6]) ∨ (¬ Split rest t ∧ ∃ v, suffixes type t = [v] ∧ FamilyIs rest v ∧
      ((∀ w, FamilyIs rest w → w = v) ∨ (∀ n ∈ nets t, n.ver = v))) := by
  obtain ⟨h1, h2, _⟩ := Lemmas.MsmpcL.header_says hf
  rw [← ht] at h1 h2
  have e4 : ∀ n : Net, n.ver ≠ .v6 ↔ n.ver = .v4 := by intro n; cases n.ver <;> simp
  have e6 : ∀ n : Net, n.ver ≠ .v4 ↔ n.ver = .v6 := by intro n; cases n.ver <;> simp
  simp only [fams, List.mem_cons, List.not_mem_nil, or_false] at h2
  unfold suffixes Split
  rcases h2 with rfl | rfl | rfl
  · refine .inr ⟨fun h => ?_, .v4, by simp, (h1 .v4).2 (by simp), .inl fun w hw => ?_⟩
    · simpa using (h1 .v6).1 (h.1 .v6)
    · cases w with
      | v4 => rfl
      | v6 => simpa using (h1 .v6).1 hw
  · refine .inr ⟨fun h => ?_, .v6, by simp, (h1 .v6).2 (by simp), .inl fun w hw => ?_⟩
    · simpa using (h1 .v4).1 (h.1 .v4)
    · cases w with
      | v6 => rfl
      | v4 => simpa using (h1 .v4).1 hw
  · have all : ∀ v, FamilyIs rest v := fun v => (h1 v).2 (.inl rfl)
    rw [if_pos rfl]
    by_cases a : has .v4 t = true <;> by_cases b : has .v6 t = true
    · exact .inl ⟨⟨all, has_iff.1 a, has_iff.1 b⟩, by simp [a, b]⟩
    · refine .inr ⟨fun h => b (has_iff.2 h.2.2), .v4, by simp [a, b], all _, .inr fun n hn => ?_⟩
      exact (e4 n).1 fun e => b (has_iff.2 ⟨n, hn, e⟩)
    · refine .inr ⟨fun h => a (has_iff.2 h.2.1), .v6, by simp [a, b], all _, .inr fun n hn => ?_⟩
      exact (e6 n).1 fun e => a (has_iff.2 ⟨n, hn, e⟩)
    · refine .inr ⟨fun h => a (has_iff.2 h.2.1), .v4, by simp [a, b], all _, .inr fun n hn => ?_⟩
      exact (e4 n).1 fun e => b (has_iff.2 ⟨n, hn, e⟩)

theorem collect_two {α β : Type} {f : α → Except Err (List β)} {a b : α} {r : List β} (h : Msmpc.collect f [a, b] = .ok r) :
    ∃ x y, f a = .ok x ∧ f b = .ok y ∧ r = x ++ y := by
  unfold Msmpc.collect at h
  obtain ⟨x, h1, h⟩ := bind_ok h
  obtain ⟨z, h2, h⟩ := bind_ok h
  unfold Msmpc.collect at h2
  obtain ⟨y, h3, h2⟩ := bind_ok h2
  cases h2
  cases h
  exact ⟨x, y, h1, h3, by simp⟩

theorem collect_one {α β : Type} {f : α → Except Err (List β)} {a : α} {r : List β} (h : Msmpc.collect f [a] = .ok r) : f a = .ok r := by
  unfold Msmpc.collect at h
  obtain ⟨x, h1, h⟩ := bind_ok h
  cases h
  rw [h1]
  simp

/-- A term without addresses or of the packet's family. -/
theorem piece_wants {o : Msmpc.Group} {apps : List App} (own : MsmpcOwn o apps) (hn : (apps.map App.name).Nodup) {g : STerm}
    (hk : Spec.Msmpc.Kept g) {p : Packet} (coh : Coherent p) (fit : Spec.Msmpc.Live g → MsmpcFits p g) {filter set : Str} {types : List (Option Nat)}
    (ht : normalizeIcmpTypes g.term.icmpType (change g.term).protocol (Msmpc.icmpAf (change g.term).protocol) = .ok types)
    (hm : { entry filter (change g.term) g.timeout types with name := set } ∈ apps)
    (hd : p.proto = "tcp" ∨ p.proto = "udp" → 1 ≤ p.dport ∧ p.dport ≤ 65535) {type : String} {dup : Bool} {v : Ver} {os : List Out}
    (h : piece type (g.term.option.contains "inactive") dup ⟨{ g with term := change g.term }, set⟩ v = .ok os)
    (hv : v = p.ver ∨ (type = "mixed" ∧ nets g.term = [])) (w : String) :
    (∃ x ∈ os, Hits o p x w) ↔ Spec.Msmpc.Wants p g w := by
  have empty : nets g.term = [] → g.term.sourceAddress = [] ∧ g.term.sourceAddressExclude = [] ∧ g.term.destinationAddress = [] ∧
      g.term.destinationAddressExclude = [] := by
    intro h
    simpa [nets, and_assoc] using h
  have gn : ∀ v, gone v [] [] = false := fun v => rfl
  rcases piece_is h with ⟨h1, rfl⟩ | ⟨h1, h2, h3, as, h4, rfl⟩
  · refine iff_of_false (by simp) ?_
    rintro ⟨hl, hmat, _⟩
    have ft := fit hl
    obtain ⟨⟨m1, m2⟩, ⟨m3, _⟩, _⟩ := (msmpc_matches ft hk).1 hmat
    rcases hv with rfl | ⟨rfl, he⟩
    · rcases h1 with h1 | h1 | h1
      · rw [msmpc_other_icmp] at h1
        have : (("icmp" ∈ g.term.protocol ∧ "icmpv6" ∉ g.term.protocol) ∧ p.ver = .v6) ∨
            (("icmpv6" ∈ g.term.protocol ∧ "icmp" ∉ g.term.protocol) ∧ p.ver = .v4) := by
          split at h1
          · obtain ⟨a, _, _, ⟨b, c⟩ | ⟨b, c⟩⟩ := h1
            · exact .inl ⟨⟨b, fun x => a ⟨b, x⟩⟩, c⟩
            · exact .inr ⟨⟨b, fun x => a ⟨x, b⟩⟩, c⟩
          · rcases h1 with ⟨a, b, c⟩ | ⟨a, b, c⟩
            · exact .inr ⟨⟨a, b⟩, c⟩
            · exact .inl ⟨⟨a, b⟩, c⟩
        rcases this with ⟨⟨a, b⟩, c⟩ | ⟨⟨a, b⟩, c⟩
        · have hmem : p.proto ∈ g.term.protocol := m3.resolve_left (List.ne_nil_of_mem a)
          rcases ft.icmp (.inl a) _ hmem with e | e
          · exact coh.icmp6 c e
          · exact b (e ▸ hmem)
        · have hmem : p.proto ∈ g.term.protocol := m3.resolve_left (List.ne_nil_of_mem a)
          rcases ft.icmp (.inr a) _ hmem with e | e
          · exact b (e ▸ hmem)
          · exact coh.icmp4 c e
      · exact void_no (gone_void (fun n hn => ft.src n (List.mem_append.2 (.inl hn))) (fun n hn => ft.src n (List.mem_append.2 (.inr hn))) h1) _ m1
      · exact void_no (gone_void (fun n hn => ft.dst n (List.mem_append.2 (.inl hn))) (fun n hn => ft.dst n (List.mem_append.2 (.inr hn))) h1) _ m2
    · obtain ⟨e1, e2, e3, e4⟩ := empty he
      rw [e1, e2, e3, e4, gn, msmpc_other_icmp, if_pos rfl] at h1
      rcases h1 with h1 | h1 | h1
      · obtain ⟨n, hn, _⟩ := has_iff.1 h1.2.1
        rw [he] at hn
        cases hn
      · cases h1
      · cases h1
  · simp only [List.mem_singleton, exists_eq_left]
    refine rule_wants own hn hk fit ht hm hd h4 (fun hl => ?_) (fun hl => ?_) w
    · have ft := fit hl
      rcases hv with rfl | ⟨rfl, he⟩
      · exact side_hits (fun n hn => ft.src n (List.mem_append.2 (.inl hn))) (fun n hn => ft.src n (List.mem_append.2 (.inr hn)))
          ft.srcExclude ft.srcNested h2 _
      · obtain ⟨e1, e2, e3, e4⟩ := empty he
        rw [e1, e2]
        exact iff_of_true (.inl ⟨rfl, rfl⟩) ⟨.inl rfl, by rintro ⟨_, h, _⟩; cases h⟩
    · have ft := fit hl
      rcases hv with rfl | ⟨rfl, he⟩
      · exact side_hits (fun n hn => ft.dst n (List.mem_append.2 (.inl hn))) (fun n hn => ft.dst n (List.mem_append.2 (.inr hn)))
          ft.dstExclude ft.dstNested h3 _
      · obtain ⟨e1, e2, e3, e4⟩ := empty he
        rw [e3, e4]
        exact iff_of_true (.inl ⟨rfl, rfl⟩) ⟨.inl rfl, by rintro ⟨_, h, _⟩; cases h⟩

/-- A rule for the other family does not match. -/
theorem piece_other {o : Msmpc.Group} {g : STerm} {p : Packet} (fit : Spec.Msmpc.Live g → MsmpcFits p g) (hk : Spec.Msmpc.Kept g) {set : Str} {type : String} {dup : Bool} {v : Ver} {os : List Out}
    (h : piece type (g.term.option.contains "inactive") dup ⟨{ g with term := change g.term }, set⟩ v = .ok os)
    (hv : p.ver ≠ v) (hne : nets g.term ≠ []) (w : String) : ¬ ∃ x ∈ os, Hits o p x w := by
  rcases piece_is h with ⟨h1, rfl⟩ | ⟨h1, h2, h3, as, h4, rfl⟩
  · simp
  · rintro ⟨x, hx, r, rfl, hr, _⟩
    have hx := List.mem_singleton.1 hx
    injection hx with hx
    subst hx
    have hi : "inactive" ∉ g.term.option := by
      have : g.term.option.contains "inactive" = false := hr.active
      simpa using this
    have ft := fit ⟨hk, hi⟩
    have : g.term.sourceAddress ≠ [] ∨ g.term.destinationAddress ≠ [] := by
      apply Classical.byContradiction
      intro hc
      rw [not_or] at hc
      have e1 := Classical.not_not.1 hc.1
      have e2 := Classical.not_not.1 hc.2
      have e3 : g.term.sourceAddressExclude = [] := Classical.byContradiction fun h => ft.srcExclude h e1
      have e4 : g.term.destinationAddressExclude = [] := Classical.byContradiction fun h => ft.dstExclude h e2
      exact hne (by unfold nets; rw [e1, e2, e3, e4]; rfl)
    rcases this with h | h
    · exact side_other h h2 hv _ hr.src
    · exact side_other h h3 hv _ hr.dst

/-- A term with addresses of the other family only does not match. -/
theorem other_family {g : STerm} {p : Packet} (ft : MsmpcFits p g) (hk : Spec.Msmpc.Kept g) {v : Ver} (hv : p.ver ≠ v)
    (hall : ∀ n ∈ nets g.term, n.ver = v) (hne : nets g.term ≠ []) : ¬ Matches g.term p := by
  intro hm
  obtain ⟨⟨m1, m2⟩, _⟩ := (msmpc_matches ft hk).1 hm
  have no : ∀ {inc exc : List Net} {x : Nat}, (∀ n ∈ inc, n ∈ nets g.term) → inc ≠ [] → ¬ AddrMatch inc exc p.ver x := by
    rintro inc exc x hsub hi ⟨h1 | ⟨n, hn, hmem⟩, _⟩
    · exact hi h1
    · exact hv (hmem.1.symm.trans (hall n (hsub n hn)))
  have s1 : ∀ n ∈ g.term.sourceAddress, n ∈ nets g.term := fun n hn => by unfold nets; simp [hn]
  have s2 : ∀ n ∈ g.term.destinationAddress, n ∈ nets g.term := fun n hn => by unfold nets; simp [hn]
  by_cases e1 : g.term.sourceAddress = []
  · by_cases e2 : g.term.destinationAddress = []
    · have e3 : g.term.sourceAddressExclude = [] := Classical.byContradiction fun h => ft.srcExclude h e1
      have e4 : g.term.destinationAddressExclude = [] := Classical.byContradiction fun h => ft.dstExclude h e2
      exact hne (by unfold nets; rw [e1, e2, e3, e4]; rfl)
    · exact no s2 e2 m2
  · exact no s1 e1 m1

/-- C157: for filters of different names, the rules of a group do with a packet of the filter's family what the first term of the filter
that matches says, and drop what no term matches. -/
theorem C157_partial {fs : List Msmpc.Filter} {gs : List Msmpc.Group} (h : Msmpc.output fs = .ok gs)
    (names : ((fs.filter Msmpc.Filter.here).map fun f => f.options.head?).Nodup) {i : Nat} {f : Msmpc.Filter} {o : Msmpc.Group}
    (hf : (fs.filter Msmpc.Filter.here)[i]? = some f) (ho : gs[i]? = some o) {p : Packet} (fam : FamilyIs f.options.tail p.ver)
    (coh : Coherent p) (hd : p.proto = "tcp" ∨ p.proto = "udp" → 1 ≤ p.dport ∧ p.dport ≤ 65535)
    (plain : ∀ g ∈ f.terms, Spec.Msmpc.Kept g → g.term.verbatim = []) (fits : ∀ g ∈ f.terms, Spec.Msmpc.Live g → MsmpcFits p g) (w : String) :
    Does o p w ↔ Decides f p w := by
  obtain ⟨rest, type, x, bs, m, own⟩ := msmpc_made h hf ho
  have own := own names
  have fam : FamilyIs rest p.ver := by rw [m.head] at fam; exact fam
  obtain ⟨cs, c1, c2, c3⟩ := msmpc_kept m
  have key : ∀ c ∈ cs, ∀ w, (∃ y ∈ c.2, Hits o p y w) ↔ Spec.Msmpc.Wants p c.1 w := by
    intro c hc w
    have hct : c.1 ∈ f.terms := by rw [← c1]; exact List.mem_map.2 ⟨c, hc, rfl⟩
    rcases c3 c hc with ⟨h1, h2⟩ | ⟨hk, set, types, k1, k2, k3⟩
    · rw [h2]
      exact iff_of_false (by simp) fun hw => h1 hw.1.1
    · have fit := fits c.1 hct
      unfold render at k3
      dsimp only at k3
      have hel : ¬ elsewhere (change c.1.term) = true := by
        have : elsewhere c.1.term = false := elsewhere_iff.2 ⟨hk.2.2.1, hk.2.2.2.1⟩
        have e : elsewhere (change c.1.term) = elsewhere c.1.term := rfl
        rw [e, this]
        simp
      have hvb : ¬ (!(change c.1.term).verbatim.isEmpty) = true := by
        have e : (change c.1.term).verbatim = c.1.term.verbatim := rfl
        rw [e, plain c.1 hct hk]
        simp
      rw [if_neg hel, if_neg hvb] at k3
      have es : suffixes type (change c.1.term) = suffixes type c.1.term := rfl
      rw [es] at k3
      rcases suffixes_is m.fine m.kind c.1.term with ⟨hs, e⟩ | ⟨hs, v, e, hfam, hone⟩
      · rw [e] at k3
        obtain ⟨y, z, p1, p2, e3⟩ := collect_two k3
        rw [e3]
        have hne : nets c.1.term ≠ [] := by
          obtain ⟨n, hn, _⟩ := hs.2.1
          exact List.ne_nil_of_mem hn
        have split : (∃ q ∈ y ++ z, Hits o p q w) ↔ (∃ q ∈ y, Hits o p q w) ∨ ∃ q ∈ z, Hits o p q w := by
          simp only [List.mem_append, or_and_right, exists_or]
        rw [split]
        cases hver : p.ver with
        | v4 =>
          rw [piece_wants own m.looped.unique hk coh fit k1 k2 hd p1 (.inl hver.symm)]
          have := piece_other (o := o) (w := w) fit hk p2 (by rw [hver]; simp) hne
          simp only [this, or_false]
        | v6 =>
          rw [piece_wants own m.looped.unique hk coh fit k1 k2 hd p2 (.inl hver.symm)]
          have := piece_other (o := o) (w := w) fit hk p1 (by rw [hver]; simp) hne
          simp only [this, false_or]
      · rw [e] at k3
        have k3 := collect_one k3
        by_cases hv : v = p.ver
        · exact piece_wants own m.looped.unique hk coh fit k1 k2 hd k3 (.inl hv) w
        · rcases hone with hone | hone
          · exact absurd (hone _ fam).symm hv
          · by_cases hne : nets c.1.term = []
            · refine piece_wants own m.looped.unique hk coh fit k1 k2 hd k3 (.inr ⟨?_, hne⟩) w
              have a := ((Lemmas.MsmpcL.header_says m.fine).1 p.ver).1 fam
              have b := ((Lemmas.MsmpcL.header_says m.fine).1 v).1 hfam
              rw [← m.kind] at a b
              rcases a with a | a
              · exact a
              · rcases b with b | b
                · exact b
                · rw [a] at b
                  cases hpv : p.ver <;> cases hvv : v <;> rw [hpv, hvv] at b <;> simp at b
                  · exact absurd (hvv.trans hpv.symm) hv
                  · exact absurd (hvv.trans hpv.symm) hv
            · refine iff_of_false (piece_other fit hk k3 (fun e => hv e.symm) hne w) ?_
              rintro ⟨hl, hm, _⟩
              exact other_family (fit hl) hk (fun e => hv e.symm) hone hne hm
  have huniq : ∀ g w w', Spec.Msmpc.Wants p g w → Spec.Msmpc.Wants p g w' → w = w' := by
    rintro g w w' ⟨_, _, h1, _⟩ ⟨_, _, h2, _⟩
    rw [h1] at h2
    injection h2
  unfold Does Decides
  rw [c2, first_blocks huniq key, c1]
  apply or_congr Iff.rfl
  apply and_congr _ Iff.rfl
  constructor
  · intro hno g hg w hw
    rw [← c1] at hg
    obtain ⟨c, hc, rfl⟩ := List.mem_map.1 hg
    obtain ⟨y, hy, hh⟩ := (key c hc w).2 hw
    exact hno y (List.mem_flatMap.2 ⟨c, hc, hy⟩) w hh
  · intro hno y hy w hh
    obtain ⟨c, hc, hy⟩ := List.mem_flatMap.1 hy
    exact hno c.1 (by rw [← c1]; exact List.mem_map.2 ⟨c, hc, rfl⟩) w ((key c hc w).1 ⟨y, hy, hh⟩)

end Verif.Props
