import Verif.Lemmas.OpenConfig
import Verif.Props.Policy

/-!
Properties of the model of capirca/lib/openconfig.py: C75, C76.
-/

namespace Verif.Props
open Verif Verif.Spec Verif.Spec.Flat Verif.Spec.Oc Verif.OpenConfig Policy Aclgenerator Nacaddr

/-- The addresses of one direction are rendered faithfully: without exclusions there are none or some of the family, with
exclusions all are of one family, do not overlap, and something of the family remains. -/
def OSide (v : Ver) (inc exc : List Net) : Prop :=
  (exc = [] ∧ (inc = [] ∨ ∃ n ∈ inc, n.ver = v)) ∨
  (exc ≠ [] ∧ (∀ a ∈ inc, ∀ b ∈ inc, a.ver = b.ver) ∧ (∀ a ∈ exc, ∀ b ∈ exc, a.ver = b.ver) ∧ Disjoint inc ∧
    ∃ x, Den inc v x ∧ ¬ Den exc v x)

/-- The options are rendered faithfully. -/
def OOptions (v : Ver) (t : Term) : Prop :=
  t.option = [] ∨
  ((∀ o ∈ t.option, o = "established" ∨ o = "tcp-established") ∧ t.protocol ≠ [] ∧ ∀ q ∈ t.protocol, q = "tcp" ∨ q = "udp") ∨
  ((∀ o ∈ t.option, o = "initial") ∧ t.protocol ≠ [] ∧ ∀ q ∈ t.protocol, q = "tcp") ∨
  ((∀ o ∈ t.option, o = "is-fragment") ∧ v = .v4)

/-- The terms that are rendered faithfully in a set of the family. For what happens without the conditions beyond the tool's own checks,
see the refutations. -/
structure OFits (v : Ver) (t : Term) : Prop where
  keywords : initCheck OpenConfig.tables [(["openconfig"], [kterm t])] = .ok ()
  sane : sanityCheck t = .ok ()
  active : Active "openconfig" (kterm t)
  action : ∃ a, t.action = [a]
  untagged : Untagged t
  family : t.restrictAddressFamily = none
  src : ∀ n ∈ t.sourceAddress ++ t.sourceAddressExclude, WF n
  dst : ∀ n ∈ t.destinationAddress ++ t.destinationAddressExclude, WF n
  srcSide : OSide v t.sourceAddress t.sourceAddressExclude
  dstSide : OSide v t.destinationAddress t.destinationAddressExclude
  both : t.sourceAddressExclude = [] ↔ t.destinationAddressExclude = []
  ports : t.sourcePort ≠ [] ∨ t.destinationPort ≠ [] → t.protocol ≠ []
  zero : (0, 0) ∉ t.sourcePort ++ t.destinationPort
  icmp : t.icmpType = []
  options : OOptions v t

theorem otables_ok : ∀ e ∈ OpenConfig.tables.subTokens, e.1 ∈ OpenConfig.tables.tokens := by decide

/-! ### addresses -/

theorem oside {v : Ver} {inc exc : List Net} (w : ∀ n ∈ inc ++ exc, WF n) (f : OSide v inc exc) {r sa : List Net}
    (h1 : exc = [] → r = inc) (h2 : exc ≠ [] → addressListExclude inc exc false = .ok r)
    (h : ofVersion v (some r) = .ok sa) :
    (∀ n ∈ sa, WF n) ∧ (sa = [] ↔ inc = []) ∧ ∀ x, Den sa v x ↔ Den inc v x ∧ ¬ Den exc v x := by
  obtain ⟨wi, we⟩ := addrMatch_wf w
  cases h
  rcases f with ⟨he, hf⟩ | ⟨he, hi, hx, hd, hs⟩
  · subst he
    rw [h1 rfl]
    refine ⟨fun n hn => wi n (List.mem_filter.1 hn).1, ?_, fun x => ?_⟩
    · constructor
      · intro e
        rcases hf with h | ⟨n, hn, hv⟩
        · exact h
        · have : n ∈ inc.filter fun n => n.ver == v := List.mem_filter.2 ⟨hn, by simp [hv]⟩
          rw [e] at this
          cases this
      · rintro rfl
        rfl
    · rw [Cisco.den_filter]
      simp [Den]
  · obtain ⟨r', e, wr, dr⟩ := addressListExclude_nocollapse_spec inc exc wi we hi hx hd
    rw [h2 he] at e
    cases e
    have hden : ∀ x, Den (r.filter fun n => n.ver == v) v x ↔ Den inc v x ∧ ¬ Den exc v x := by
      intro x
      rw [Cisco.den_filter]
      exact dr v x
    refine ⟨fun n hn => wr n (List.mem_filter.1 hn).1, ?_, hden⟩
    obtain ⟨x, hx1, hx2⟩ := hs
    obtain ⟨n, hn, _⟩ := (hden x).2 ⟨hx1, hx2⟩
    obtain ⟨m, hm, _⟩ := hx1
    constructor
    · intro e
      rw [e] at hn
      cases hn
    · rintro rfl
      cases hm

/-- The fields of a network. -/
def ofNet (a : Option Net) : Option (Ver × Nat × Nat) := a.map fun n => (n.ver, n.addr, n.plen)

theorem oaddr {v : Ver} {inc exc sa : List Net} {x : Nat} (hw : ∀ n ∈ sa, WF n) (hn : sa = [] ↔ inc = [])
    (hd : Den sa v x ↔ Den inc v x ∧ ¬ Den exc v x) (he : inc = [] → exc = []) :
    (∃ a ∈ orAny sa, IfSet (ofNet a) fun n => Spec.Flat.Covers n v x) ↔ AddrMatch inc exc v x := by
  unfold orAny AddrMatch
  by_cases h0 : sa = []
  · have h1 := hn.1 h0
    have h2 := he h1
    subst h0 h1 h2
    simp [ofNet, ifSet_none, Den]
  · have h1 : inc ≠ [] := fun h => h0 (hn.2 h)
    rw [if_neg (by simpa using h0)]
    have : (inc = [] ∨ Den inc v x) ∧ ¬ Den exc v x ↔ Den sa v x := by
      rw [hd]
      simp [h1]
    rw [this]
    constructor
    · rintro ⟨a, ha, h⟩
      obtain ⟨n, hn', rfl⟩ := List.mem_map.1 ha
      exact ⟨n, hn', (covers_iff (hw n hn') _ _).1 (h _ rfl)⟩
    · rintro ⟨n, hn', h⟩
      exact ⟨some n, List.mem_map.2 ⟨n, hn', rfl⟩, ifSet_some.2 ((covers_iff (hw n hn') _ _).2 h)⟩

/-! ### ports -/

/-- The field of a range. -/
def ofPort (r : PortRange) : Option (Nat × Nat) := if r.1 = r.2 ∧ r.2 = 0 then none else some r

theorem oport {l : List PortRange} {p : Packet} {x : Nat} (hz : (0, 0) ∉ l) (hp : l ≠ [] → p.proto ∈ portProtos) :
    (∃ r ∈ orZero l, IfSet (ofPort r) (PortIn p x)) ↔ PortMatch l x := by
  unfold orZero PortMatch
  by_cases h0 : l = []
  · subst h0
    simp [ofPort, ifSet_none]
  · rw [if_neg (by simpa using h0)]
    have key : ∀ r ∈ l, ofPort r = some r := by
      intro r hr
      unfold ofPort
      rw [if_neg]
      rintro ⟨h1, h2⟩
      refine hz ?_
      have : r = (0, 0) := Prod.ext (by rw [h1, h2]) h2
      rw [← this]
      exact hr
    simp only [h0, false_or]
    constructor
    · rintro ⟨r, hr, h⟩
      rw [key r hr, ifSet_some] at h
      exact ⟨r, hr, h.2⟩
    · rintro ⟨r, hr, h⟩
      refine ⟨r, hr, ?_⟩
      rw [key r hr, ifSet_some]
      exact ⟨hp h0, h⟩

/-! ### protocols and options -/

theorem foldl_all {v : Ver} {q : Proto} {w : Option String} : ∀ {opts : List String} {d : Option String},
    (∀ o ∈ opts, ∀ d, optDetail v q d o = w) → (opts = [] → d = w) → opts.foldl (optDetail v q) d = w
  | [], d, _, h => h rfl
  | o :: os, d, h, _ => by
    rw [List.foldl_cons]
    exact foldl_all (fun o' ho => h o' (List.mem_cons_of_mem _ ho)) fun _ => h o (by simp) d

theorem foldl_keep {v : Ver} {q : Proto} {d : Option String} : ∀ {opts : List String},
    (∀ o ∈ opts, optDetail v q d o = d) → opts.foldl (optDetail v q) d = d
  | [], _ => rfl
  | o :: os, h => by
    rw [List.foldl_cons, h o (by simp)]
    exact foldl_keep fun o' ho => h o' (List.mem_cons_of_mem _ ho)

theorem protoNumber_value {s : String} (h : s ≠ "none") : protoValue (protoNumber (.str s)) = protoMap.lookup s := by
  unfold protoNumber
  by_cases e : s = "ipip"
  · subst e
    decide
  · have e' : ¬ (s == "ipip") = true := by simpa using e
    simp only [e', protoValue]
    simp [h]

theorem oproto {v : Ver} {t : Term} {ps : List Proto} (hs : termProtocols (t.protocol.map .str) = .ok ps)
    (hk : ((orNone ps).any fun p => (protoValue p).isNone && p != .str "none") = false) (ho : OOptions v t) {p : Packet}
    (hp : Coherent p) :
    (∃ q ∈ orNone ps, IfSet (protoValue q) (NumberIs p) ∧ IfSet (t.option.foldl (optDetail v q) none) (DetailHolds p)) ↔
    OneOf t.protocol p.proto ∧ ∀ o ∈ t.option, p.hasOption o = true := by
  have e := termProtocols_ok hs
  have hnone : "none" ∉ t.protocol := by
    intro hm
    unfold termProtocols at hs
    rw [if_pos] at hs
    · cases hs
    · rw [List.any_eq_true]
      exact ⟨.str "none", List.mem_map.2 ⟨_, hm, rfl⟩, by decide⟩
  have hval : ∀ s ∈ t.protocol, protoValue (protoNumber (.str s)) = protoMap.lookup s := fun s hm =>
    protoNumber_value fun h => hnone (h ▸ hm)
  have hnum : ∀ s ∈ t.protocol, (IfSet (protoValue (protoNumber (.str s))) (NumberIs p) ↔ p.proto = s) := by
    intro s hm
    cases hl : protoMap.lookup s with
    | some n =>
      rw [hval s hm, hl, ifSet_some]
      exact numberIs_iff hl hp.proto
    | none =>
      exfalso
      have hq : protoNumber (.str s) ∈ ps := by
        rw [e]
        exact List.mem_map.2 ⟨_, List.mem_map.2 ⟨s, hm, rfl⟩, rfl⟩
      have hne : ps ≠ [] := fun h => by rw [h] at hq; cases hq
      unfold orNone at hk
      rw [if_neg (by simpa using hne)] at hk
      have := List.any_eq_false.1 hk _ hq
      rw [hval s hm, hl] at this
      simp only [Option.isNone_none, Bool.true_and, bne_iff_ne, ne_eq, Classical.not_not] at this
      unfold protoNumber at this
      by_cases h1 : (s == "ipip") = true
      · simp [h1] at this
      · simp only [h1] at this
        simp at this
        exact hnone (this ▸ hm)
  by_cases h0 : t.protocol = []
  · have hps : orNone ps = [.str "none"] := by rw [e, h0]; rfl
    rw [hps]
    have h1 : OneOf t.protocol p.proto := .inl h0
    simp only [List.mem_singleton, exists_eq_left, h1, true_and]
    have h2 : protoValue (.str "none") = none := by decide
    rw [h2]
    simp only [ifSet_none, true_and]
    rcases ho with h | ⟨_, h, _⟩ | ⟨_, h, _⟩ | ⟨h, rfl⟩
    · rw [h]
      simp [ifSet_none]
    · exact absurd h0 h
    · exact absurd h0 h
    · by_cases he : t.option = []
      · rw [he]; simp [ifSet_none]
      rw [foldl_all (w := some "FRAGMENT") (fun o ho d => by rw [h o ho]; rfl) (fun h => absurd h he), ifSet_some]
      obtain ⟨o, os, he'⟩ := List.exists_cons_of_ne_nil he
      constructor
      · intro hd o ho
        rw [h o ho]
        rcases hd with ⟨h, _⟩ | ⟨h, _⟩ | ⟨_, h⟩
        · exact absurd h (by decide)
        · exact absurd h (by decide)
        · exact h
      · intro hd
        have := hd o (by rw [he']; simp)
        rw [h o (by rw [he']; simp)] at this
        exact .inr (.inr ⟨rfl, this⟩)
  · have hps : orNone ps = (t.protocol.map .str).map protoNumber := by
      unfold orNone
      rw [if_neg, e]
      rw [e]
      simpa using h0
    rw [hps, List.map_map]
    have hone : OneOf t.protocol p.proto ↔ p.proto ∈ t.protocol := by
      unfold OneOf
      simp [h0]
    rw [hone]
    have step : (∃ q ∈ t.protocol.map (protoNumber ∘ .str), IfSet (protoValue q) (NumberIs p) ∧
        IfSet (t.option.foldl (optDetail v q) none) (DetailHolds p)) ↔
        p.proto ∈ t.protocol ∧ IfSet (t.option.foldl (optDetail v (protoNumber (.str p.proto))) none) (DetailHolds p) := by
      constructor
      · rintro ⟨q, hq, h1, h2⟩
        obtain ⟨s, hm, rfl⟩ := List.mem_map.1 hq
        have := (hnum s hm).1 h1
        subst this
        exact ⟨hm, h2⟩
      · rintro ⟨h1, h2⟩
        exact ⟨_, List.mem_map.2 ⟨_, h1, rfl⟩, (hnum _ h1).2 rfl, h2⟩
    rw [step]
    refine and_congr_right fun hm => ?_
    by_cases he : t.option = []
    · rw [he]; simp [ifSet_none]
    obtain ⟨o, os, he'⟩ := List.exists_cons_of_ne_nil he
    have hmo : o ∈ t.option := by rw [he']; simp
    rcases ho with h | ⟨h, _, hq⟩ | ⟨h, _, hq⟩ | ⟨h, rfl⟩
    · exact absurd h he
    · have hopt : (∀ o ∈ t.option, p.hasOption o = true) ↔ p.hasOption "tcp-established" = true := by
        constructor
        · intro ha
          have := ha o hmo
          rcases h o hmo with rfl | rfl
          · rwa [hp.est] at this
          · exact this
        · intro ha o ho
          rcases h o ho with rfl | rfl
          · rw [hp.est]; exact ha
          · exact ha
      rw [hopt]
      rcases hq _ hm with hq | hq
      · rw [hq, foldl_all (w := some "TCP_ESTABLISHED") (fun o ho d => by rcases h o ho with rfl | rfl <;> rfl)
          (fun h => absurd h he), ifSet_some]
        constructor
        · rintro (⟨_, _, h⟩ | ⟨h, _⟩ | ⟨h, _⟩)
          · exact h
          · exact absurd h (by decide)
          · exact absurd h (by decide)
        · exact fun h => .inl ⟨rfl, hq, h⟩
      · rw [hq, foldl_keep (fun o ho => by rcases h o ho with rfl | rfl <;> rfl)]
        exact iff_of_true ifSet_none (hp.udp hq)
    · rw [hq _ hm, foldl_all (w := some "TCP_INITIAL") (fun o ho d => by rw [h o ho]; rfl)
          (fun h => absurd h he), ifSet_some]
      constructor
      · rintro (⟨h, _⟩ | ⟨_, _, h'⟩ | ⟨h, _⟩)
        · exact absurd h (by decide)
        · intro o ho
          rw [h o ho]
          exact h'
        · exact absurd h (by decide)
      · intro ha
        have := ha o hmo
        rw [h o hmo] at this
        exact .inr (.inl ⟨rfl, hq _ hm, this⟩)
    · rw [foldl_all (w := some "FRAGMENT") (fun o ho d => by rw [h o ho]; rfl) (fun h => absurd h he), ifSet_some]
      constructor
      · intro hd o ho
        rw [h o ho]
        rcases hd with ⟨h, _⟩ | ⟨h, _⟩ | ⟨_, h⟩
        · exact absurd h (by decide)
        · exact absurd h (by decide)
        · exact h
      · intro hd
        have := hd o hmo
        rw [h o hmo] at this
        exact .inr (.inr ⟨rfl, this⟩)

/-! ### terms -/

theorem rule_eq {v : Ver} {opts : List String} {act : String} {a b : Option Net} {c d : PortRange} {q : Proto} :
    ruleOf v opts (putDport d (putSport c (putDst b (putSrc a { action := act })))) q =
      { action := act, src := ofNet a, dst := ofNet b, sport := ofPort c, dport := ofPort d, proto := protoValue q,
        detail := opts.foldl (optDetail v q) none } := by
  unfold ruleOf putDport putSport ofPort
  cases a <;> cases b <;> by_cases h1 : c.1 = c.2 ∧ c.2 = 0 <;> by_cases h2 : d.1 = d.2 ∧ d.2 = 0 <;>
    simp [h1, h2, putDst, putSrc, ofNet]

theorem allOrNone_any (l : List Net) : AllOrNone (· ≠ none) (orAny l) := by
  unfold orAny
  split
  · exact .inr (by simp)
  · exact .inl (by simp)

theorem allOrNone_zero {l : List PortRange} (h : (0, 0) ∉ l) : AllOrNone Sets (orZero l) := by
  unfold orZero
  split
  · exact .inr (by simp [Sets])
  · refine .inl fun r hr hs => h ?_
    have : r = (0, 0) := Prod.ext (by rw [hs.1, hs.2]) hs.2
    rw [← this]
    exact hr

theorem allOrNone_protos {t : Term} {ps : List Proto} (hs : termProtocols (t.protocol.map .str) = .ok ps)
    (hk : ((orNone ps).any fun p => (protoValue p).isNone && p != .str "none") = false) :
    AllOrNone (fun p => protoValue p ≠ none) (orNone ps) := by
  have hnone : Proto.str "none" ∉ ps := by
    intro hm
    have e := termProtocols_ok hs
    rw [e] at hm
    obtain ⟨q, hq, e1⟩ := List.mem_map.1 hm
    obtain ⟨s, h1, rfl⟩ := List.mem_map.1 hq
    unfold protoNumber at e1
    by_cases h2 : (s == "ipip") = true
    · simp [h2] at e1
    · simp only [h2] at e1
      simp at e1
      subst e1
      unfold termProtocols at hs
      rw [if_pos] at hs
      · cases hs
      · rw [List.any_eq_true]
        exact ⟨_, hq, by decide⟩
  unfold orNone at hk ⊢
  split
  · exact .inr (by simp [protoValue])
  next h0 =>
    rw [if_neg h0] at hk
    refine .inl fun q hq hn => ?_
    have := List.any_eq_false.1 hk q hq
    rw [hn] at this
    simp only [Option.isNone_none, Bool.true_and, bne_iff_ne, ne_eq, Classical.not_not] at this
    exact hnone (this ▸ hq)

theorem exists_product {A B C D Q : Type} {la : List A} {lb : List B} {lc : List C} {ld : List D} {lq : List Q}
    {a : A → Prop} {b : B → Prop} {c : C → Prop} {d : D → Prop} {q : Q → Prop} {R : A → B → C → D → Q → Ace}
    {P : Ace → Prop} {E : Prop} (h : ∀ x y z w u, P (R x y z w u) ↔ E ∧ a x ∧ b y ∧ c z ∧ d w ∧ q u) :
    (∃ r ∈ la.flatMap fun x => lb.flatMap fun y => lc.flatMap fun z => ld.flatMap fun w => lq.map (R x y z w), P r) ↔
      E ∧ (∃ x ∈ la, a x) ∧ (∃ y ∈ lb, b y) ∧ (∃ z ∈ lc, c z) ∧ (∃ w ∈ ld, d w) ∧ ∃ u ∈ lq, q u := by
  constructor
  · rintro ⟨r, hr, hP⟩
    obtain ⟨x, hx, hr⟩ := List.mem_flatMap.1 hr
    obtain ⟨y, hy, hr⟩ := List.mem_flatMap.1 hr
    obtain ⟨z, hz, hr⟩ := List.mem_flatMap.1 hr
    obtain ⟨w, hw, hr⟩ := List.mem_flatMap.1 hr
    obtain ⟨u, hu, rfl⟩ := List.mem_map.1 hr
    obtain ⟨h0, h1, h2, h3, h4, h5⟩ := (h ..).1 hP
    exact ⟨h0, ⟨x, hx, h1⟩, ⟨y, hy, h2⟩, ⟨z, hz, h3⟩, ⟨w, hw, h4⟩, ⟨u, hu, h5⟩⟩
  · rintro ⟨h0, ⟨x, hx, h1⟩, ⟨y, hy, h2⟩, ⟨z, hz, h3⟩, ⟨w, hw, h4⟩, ⟨u, hu, h5⟩⟩
    exact ⟨R x y z w u, List.mem_flatMap.2 ⟨x, hx, List.mem_flatMap.2 ⟨y, hy, List.mem_flatMap.2 ⟨z, hz,
      List.mem_flatMap.2 ⟨w, hw, List.mem_map.2 ⟨u, hu, rfl⟩⟩⟩⟩⟩, (h ..).2 ⟨h0, h1, h2, h3, h4, h5⟩⟩

theorem names_unique {w a b : String} (h1 : (w, a) ∈ names) (h2 : (w, b) ∈ names) : a = b := by
  simp only [names, List.mem_cons, Prod.mk.injEq, List.not_mem_nil, or_false] at h1 h2
  rcases h1 with ⟨rfl, rfl⟩ | ⟨rfl, rfl⟩ | ⟨rfl, rfl⟩ <;> rcases h2 with ⟨e, rfl⟩ | ⟨e, rfl⟩ | ⟨e, rfl⟩ <;>
    first | rfl | simp at e

theorem omatches {v : Ver} {t : Term} (f : OFits v t) {p : Packet} :
    Matches t p ↔ (AddrMatch t.sourceAddress t.sourceAddressExclude p.ver p.src ∧
        AddrMatch t.destinationAddress t.destinationAddressExclude p.ver p.dst) ∧
      OneOf t.protocol p.proto ∧ (PortMatch t.sourcePort p.sport ∧ PortMatch t.destinationPort p.dport) ∧
      ∀ o ∈ t.option, p.hasOption o = true := by
  have un := fun (s : String) {v : Val} => unset (g := OpenConfig.tables) otables_ok rfl f.active f.keywords s (v := v)
  have b : Basic t := basic_of (g := OpenConfig.tables) otables_ok rfl (by decide) f.active f.keywords
  have h5 : t.protocolExcept = [] :=
    Cisco.wordsVal_falsy (un "protocol_except" (by simp [attrsOf]) (by decide))
  have h9 : t.icmpCode = [] :=
    Cisco.listVal_falsy (un "icmp_code" (by simp [attrsOf]) (by decide))
  rw [matches_basic b f.untagged (.inl f.family)]
  unfold MatchProto
  rw [h5, f.icmp, h9]
  simp [OneOf]

theorem oside_nil {v : Ver} {inc exc : List Net} (h : OSide v inc exc) : inc = [] → exc = [] := by
  rintro rfl
  rcases h with ⟨h, _⟩ | ⟨_, _, _, _, x, ⟨n, hn, _⟩, _⟩
  · exact h
  · cases hn

theorem oterm_hits {v : Ver} {t t' : Term} {l : List Ace} (f : OFits v t) (h : renderTerm v t = .ok (t', l)) {p : Packet}
    (hp : Coherent p) (hv : p.ver = v) (a : String) :
    (∃ r ∈ l, Hits v r p ∧ r.action = a) ↔ Matches t p ∧ ∃ w, t.action = [w] ∧ (w, a) ∈ names := by
  unfold renderTerm at h
  split at h
  · cases h
  obtain ⟨ps, h1, h⟩ := bind_ok h
  obtain ⟨t'', h2, h⟩ := bind_ok h
  obtain ⟨l', h3, h⟩ := bind_ok h
  cases h
  have b : Basic t := basic_of (g := OpenConfig.tables) otables_ok rfl (by decide) f.active f.keywords
  have hverb : t.verbatim = [] := Cisco.listVal_falsy
    (unset (g := OpenConfig.tables) otables_ok rfl f.active f.keywords "verbatim" (by simp [attrsOf]) (by decide))
  obtain ⟨sa, da, ad, fs, fd, fa, rfl, hsh⟩ := flattenAll_shape h2
  unfold convert at h3
  obtain ⟨act, h4, h3⟩ := bind_ok h3
  obtain ⟨sa', h5, h3⟩ := bind_ok h3
  obtain ⟨da', h6, h3⟩ := bind_ok h3
  dsimp only at h4 h5 h6 h3
  split at h3
  · cases h3
  next hk =>
  have hk : ((orNone ps).any fun p => (protoValue p).isNone && p != .str "none") = false := by simpa using hk
  have el := Except.ok.inj h3
  have hz := f.zero
  simp only [List.mem_append, not_or] at hz
  rw [saddrLoop_spec (allOrNone_protos h1 hk) (allOrNone_zero hz.2) (allOrNone_zero hz.1) (allOrNone_any _)
    (allOrNone_any _)] at el
  have key : ∃ r r', fs = some r ∧ fd = some r' ∧ (t.sourceAddressExclude = [] → r = t.sourceAddress) ∧
      (t.sourceAddressExclude ≠ [] → addressListExclude t.sourceAddress t.sourceAddressExclude false = .ok r) ∧
      (t.destinationAddressExclude = [] → r' = t.destinationAddress) ∧
      (t.destinationAddressExclude ≠ [] →
        addressListExclude t.destinationAddress t.destinationAddressExclude false = .ok r') := by
    rcases hsh with ⟨e1, e2, _, rfl, rfl, _, rfl, rfl, _⟩ | ⟨hne, e1, e2, _⟩
    · exact ⟨_, _, rfl, rfl, fun _ => rfl, fun h => absurd e1 h, fun _ => rfl, fun h => absurd e2 h⟩
    · have n1 : t.sourceAddressExclude ≠ [] := fun h => hne ⟨h, f.both.1 h, b.addressExclude⟩
      have n2 : t.destinationAddressExclude ≠ [] := fun h => n1 (f.both.2 h)
      unfold flattenField at e1 e2
      rw [if_neg (by simpa using n1)] at e1
      rw [if_neg (by simpa using n2)] at e2
      obtain ⟨r, k1, e1⟩ := bind_ok e1
      obtain ⟨r', k2, e2⟩ := bind_ok e2
      cases e1
      cases e2
      exact ⟨_, _, rfl, rfl, fun h => absurd h n1, fun _ => k1, fun h => absurd h n2, fun _ => k2⟩
  obtain ⟨r, r', rfl, rfl, s1, s2, d1, d2⟩ := key
  obtain ⟨ws, ns, ds⟩ := oside f.src f.srcSide s1 s2 h5
  obtain ⟨wd, nd, dd⟩ := oside f.dst f.dstSide d1 d2 h6
  have hact : ∀ a, act = a ↔ ∃ w, t.action = [w] ∧ (w, a) ∈ names := by
    intro a
    obtain ⟨w, hw⟩ := f.action
    unfold actionOf at h4
    dsimp only at h4
    rw [hw] at h4 ⊢
    dsimp only at h4
    cases hl : actionMap.lookup w with
    | none => rw [hl] at h4; cases h4
    | some c =>
      rw [hl] at h4
      cases h4
      have hm : (w, act) ∈ names := Cisco.mem_of_lookup' hl
      constructor
      · rintro rfl
        exact ⟨w, rfl, hm⟩
      · rintro ⟨w', e, h'⟩
        cases e
        exact names_unique hm h'
  rw [← el, exists_product (E := p.ver = v ∧ act = a)
    (a := fun x => IfSet (ofNet x) fun n => Spec.Flat.Covers n p.ver p.src)
    (b := fun x => IfSet (ofNet x) fun n => Spec.Flat.Covers n p.ver p.dst)
    (c := fun x => IfSet (ofPort x) (PortIn p p.sport)) (d := fun x => IfSet (ofPort x) (PortIn p p.dport))
    (q := fun x => IfSet (protoValue x) (NumberIs p) ∧ IfSet (t.option.foldl (optDetail v x) none) (DetailHolds p)) ?_]
  · rw [omatches f, ← hact a, oaddr ws ns (by rw [hv]; exact ds _) (oside_nil f.srcSide),
      oaddr wd nd (by rw [hv]; exact dd _) (oside_nil f.dstSide), oproto h1 hk f.options hp]
    have hports : OneOf t.protocol p.proto → t.sourcePort ≠ [] ∨ t.destinationPort ≠ [] → p.proto ∈ portProtos := by
      intro ho hne
      rcases ho with h | h
      · exact absurd h (f.ports hne)
      · have := sane_ports f.sane hverb hne h
        exact this
    constructor
    · rintro ⟨⟨_, ha⟩, k1, k2, k3, k4, k5, k6⟩
      have k3 := (oport hz.1 fun h => hports k5 (.inl h)).1 k3
      have k4 := (oport hz.2 fun h => hports k5 (.inr h)).1 k4
      exact ⟨⟨⟨k1, k2⟩, k5, ⟨k3, k4⟩, k6⟩, ha⟩
    · rintro ⟨⟨⟨k1, k2⟩, k5, ⟨k3, k4⟩, k6⟩, ha⟩
      have k3 := (oport hz.1 fun h => hports k5 (.inl h)).2 k3
      have k4 := (oport hz.2 fun h => hports k5 (.inr h)).2 k4
      exact ⟨⟨hv, ha⟩, k1, k2, k3, k4, k5, k6⟩
  · intro x y z w u
    rw [rule_eq]
    constructor
    · rintro ⟨k, rfl⟩
      exact ⟨⟨k.ver, rfl⟩, k.src, k.dst, k.sport, k.dport, k.proto, k.detail⟩
    · rintro ⟨⟨k0, rfl⟩, k1, k2, k3, k4, k5, k6⟩
      exact ⟨⟨k0, k1, k2, k3, k4, k5, k6⟩, rfl⟩

/-! ### sets -/

/-- The term is not expired and meant for the platform. -/
def Rendered (r : OTerm) : Prop := r.expired = false ∧ Active "openconfig" (kterm r.term)

instance (r : OTerm) : Decidable (Rendered r) := inferInstanceAs (Decidable (_ ∧ _))

theorem oskip {r : OTerm} : (!Cisco.onPlatform "openconfig" r.term || r.expired) = true ↔ ¬ Rendered r := by
  unfold Rendered
  have : Cisco.onPlatform "openconfig" r.term = true ↔ Active "openconfig" (kterm r.term) := by
    unfold Cisco.onPlatform Active kterm
    cases r.term.platformExclude <;> simp
  rw [← this]
  cases Cisco.onPlatform "openconfig" r.term <;> cases r.expired <;> simp

theorem wants_iff {r : OTerm} {p : Packet} {a : String} :
    Wants "openconfig" names r.expired r.term p a ↔
      Rendered r ∧ Matches r.term p ∧ ∃ w, r.term.action = [w] ∧ (w, a) ∈ names := Iff.rfl

theorem one_hits {v : Ver} {r r' : OTerm} {l : List Ace} (hf : Rendered r → OFits v r.term)
    (h : oneTerm v r = .ok (r', l)) {p : Packet} (hp : Coherent p) (hv : p.ver = v) (a : String) :
    (∃ x ∈ l, Hits v x p ∧ x.action = a) ↔ Wants "openconfig" names r.expired r.term p a := by
  rw [wants_iff]
  unfold oneTerm at h
  split at h
  next e =>
    cases h
    have := oskip.1 e
    simp [this]
  next e =>
    have hr : Rendered r := Classical.not_not.1 fun hn => e (oskip.2 hn)
    obtain ⟨q, h1, h⟩ := bind_ok h
    cases h
    rw [oterm_hits (hf hr) (show renderTerm v r.term = .ok (q.1, q.2) from h1) hp hv a]
    simp [hr]

theorem render_again {v w : Ver} {t t' : Term} {l : List Ace} (h : renderTerm v t = .ok (t', l))
    (h1 : t.sourceAddressExclude = []) (h2 : t.destinationAddressExclude = []) (h3 : t.addressExclude = []) :
    renderTerm w t' = renderTerm w t ∧ t'.platform = t.platform ∧ t'.platformExclude = t.platformExclude := by
  unfold renderTerm at h
  split at h
  · cases h
  obtain ⟨ps, _, h⟩ := bind_ok h
  obtain ⟨t'', h4, h⟩ := bind_ok h
  obtain ⟨l', _, h⟩ := bind_ok h
  cases h
  have e1 := h4
  unfold flattenAll at e1
  rw [if_pos (by simp [h1, h2, h3])] at e1
  have e2 : flattenAll t' = .ok t' := by
    cases e1
    unfold flattenAll
    rw [if_pos (by simp [h1, h2, h3])]
  have e3 : t'.option = t.option ∧ t'.protocol = t.protocol ∧ t'.platform = t.platform ∧
      t'.platformExclude = t.platformExclude := by
    cases e1
    exact ⟨rfl, rfl, rfl, rfl⟩
  refine ⟨?_, e3.2.2⟩
  unfold renderTerm
  rw [e2, h4, e3.1, e3.2.1]

theorem terms_again {v w : Ver} : ∀ {ts ts' : List OTerm} {l : List Ace}, termsLoop v ts = .ok (ts', l) →
    (∀ r ∈ ts, Rendered r → r.term.sourceAddressExclude = [] ∧ r.term.destinationAddressExclude = [] ∧
      r.term.addressExclude = []) → ∀ {us m}, termsLoop w ts' = .ok (us, m) → ∃ us', termsLoop w ts = .ok (us', m)
  | [], _, _, h, _, us, m, hm => by
    cases h
    exact ⟨us, hm⟩
  | r :: rs, ts', l, h, hx, us, m, hm => by
    rw [termsLoop] at h
    obtain ⟨a, h1, h⟩ := bind_ok h
    obtain ⟨q, h2, h⟩ := bind_ok h
    cases h
    rw [termsLoop] at hm
    obtain ⟨a', h3, hm⟩ := bind_ok hm
    obtain ⟨q', h4, hm⟩ := bind_ok hm
    cases hm
    obtain ⟨us', h5⟩ := terms_again (show termsLoop v rs = .ok (q.1, q.2) from h2)
      (fun r hr => hx r (List.mem_cons_of_mem _ hr)) (show termsLoop w q.1 = .ok (q'.1, q'.2) from h4)
    have h6 : oneTerm w a.1 = oneTerm w r := by
      unfold oneTerm at h1
      split at h1
      · cases h1
        rfl
      next e =>
        have hr : Rendered r := Classical.not_not.1 fun hn => e (oskip.2 hn)
        obtain ⟨x, h7, h1⟩ := bind_ok h1
        cases h1
        obtain ⟨k1, k2, k3⟩ := hx r (by simp) hr
        obtain ⟨k4, k5, k6⟩ := render_again (w := w) (show renderTerm v r.term = .ok (x.1, x.2) from h7) k1 k2 k3
        have e' : ¬ (!Cisco.onPlatform "openconfig" x.1 || r.expired) = true := by
          unfold Cisco.onPlatform at e ⊢
          rw [k5, k6]
          exact e
        unfold oneTerm
        dsimp only
        rw [if_neg e', if_neg e, k4]
    rw [h6] at h3
    refine ⟨a'.1 :: us', ?_⟩
    rw [termsLoop, h3, h5]
    rfl

theorem terms_blocks {v : Ver} : ∀ {ts ts' : List OTerm} {l : List Ace}, termsLoop v ts = .ok (ts', l) →
    ∃ bs : List (OTerm × List Ace), bs.map Prod.fst = ts ∧ l = bs.flatMap Prod.snd ∧
      ∀ b ∈ bs, ∃ r', oneTerm v b.1 = .ok (r', b.2)
  | [], _, _, h => by
    cases h
    exact ⟨[], rfl, rfl, by simp⟩
  | r :: rs, ts', l, h => by
    rw [termsLoop] at h
    obtain ⟨a, h1, h⟩ := bind_ok h
    obtain ⟨q, h2, h⟩ := bind_ok h
    cases h
    obtain ⟨bs, rfl, e, h3⟩ := terms_blocks (show termsLoop v rs = .ok (q.1, q.2) from h2)
    refine ⟨(r, a.2) :: bs, rfl, by rw [List.flatMap_cons, e], ?_⟩
    intro b hb
    rcases List.mem_cons.1 hb with rfl | hb
    · exact ⟨a.1, h1⟩
    · exact h3 b hb

theorem number_snd : ∀ {l : List Ace} {k : Nat}, (number k l).map Prod.snd = l
  | [], _ => rfl
  | a :: as, k => by rw [number, List.map_cons, number_snd]

theorem number_fst : ∀ {l : List Ace} {k : Nat}, (number k l).map Prod.fst = List.range' (k + 1) l.length
  | [], _ => rfl
  | a :: as, k => by rw [number, List.map_cons, number_fst, List.length_cons, List.range'_succ]

theorem number_pairwise {l : List Ace} {k : Nat} : (number k l).Pairwise fun e f => e.1 < f.1 := by
  have : ((number k l).map Prod.fst).Pairwise (· < ·) := by
    rw [number_fst]
    exact List.pairwise_lt_range'
  exact List.pairwise_map.1 this

theorem set_decides {v : Ver} {ts ts' : List OTerm} {l : List Ace} {name : Option String} {k : Nat}
    (h : termsLoop v ts = .ok (ts', l)) (hf : ∀ r ∈ ts, Rendered r → OFits v r.term) {p : Packet} (hp : Coherent p)
    (hv : p.ver = v) (a : String) : Decides ⟨name, v, number k l⟩ p a ↔ PolicyDecides ts p a := by
  obtain ⟨bs, rfl, rfl, h2⟩ := terms_blocks h
  unfold Decides PolicyDecides
  rw [Lemmas.best_first (fun a b h1 h2 => by omega) number_pairwise]
  rw [← Lemmas.first_blocks (hit := fun (x : Ace) a => Hits v x p ∧ x.action = a) ?_ ?_]
  · conv => rhs; rw [← number_snd (l := bs.flatMap Prod.snd) (k := k)]
    exact (Lemmas.first_map (f := Prod.snd) (want' := fun (x : Ace) a => Hits v x p ∧ x.action = a)
      (want := fun (e : Nat × Ace) a => Hits v e.2 p ∧ e.2.action = a) fun t _ w => Iff.rfl).symm
  · rintro r x y ⟨_, _, w, e, h1⟩ ⟨_, _, w', e', h2⟩
    rw [e] at e'
    cases e'
    exact names_unique h1 h2
  · intro b hb w
    obtain ⟨r', h3⟩ := h2 b hb
    exact one_hits (hf b.1 (List.mem_map.2 ⟨b, hb, rfl⟩)) h3 hp hv w

theorem fits_plain {t : Term} (h4 : OFits .v4 t) (h6 : OFits .v6 t) :
    t.sourceAddressExclude = [] ∧ t.destinationAddressExclude = [] ∧ t.addressExclude = [] := by
  have key : ∀ {inc exc : List Net}, OSide .v4 inc exc → OSide .v6 inc exc → exc = [] := by
    rintro inc exc (⟨h, _⟩ | ⟨_, h1, _, _, x, ⟨n, hn, hx⟩, _⟩) h6
    · exact h
    · rcases h6 with ⟨h, _⟩ | ⟨_, _, _, _, y, ⟨m, hm, hy⟩, _⟩
      · exact h
      · have := h1 n hn m hm
        have e1 := hx.1
        have e2 := hy.1
        rw [this] at e1
        rw [e1] at e2
        cases e2
  have b : Basic t := basic_of (g := OpenConfig.tables) otables_ok rfl (by decide) h4.active h4.keywords
  exact ⟨key h4.srcSide h6.srcSide, key h4.dstSide h6.dstSide, b.addressExclude⟩

theorem sets_decide {name : Ver → Option String} {k k' : Nat} {ts : List OTerm} {sets : List AclSet} {vs : List Ver}
    (hvs : vs = [.v4] ∨ vs = [.v6] ∨ vs = [.v4, .v6]) (h : setsLoop name k ts vs = .ok (k', sets))
    (hf : ∀ r ∈ ts, Rendered r → ∀ v ∈ vs, OFits v r.term) :
    sets.map AclSet.ver = vs ∧ ∀ s ∈ sets, ∀ p, Coherent p → p.ver = s.ver → ∀ a, Decides s p a ↔ PolicyDecides ts p a := by
  have one : ∀ v, setsLoop name k ts [v] = .ok (k', sets) → (∀ r ∈ ts, Rendered r → OFits v r.term) →
      sets.map AclSet.ver = [v] ∧ ∀ s ∈ sets, ∀ p, Coherent p → p.ver = s.ver → ∀ a, Decides s p a ↔ PolicyDecides ts p a := by
    intro v h hf
    rw [setsLoop] at h
    obtain ⟨q, h1, h⟩ := bind_ok h
    cases h
    refine ⟨rfl, ?_⟩
    intro s hs p hp hv a
    rw [List.mem_singleton.1 hs] at hv ⊢
    exact set_decides (show termsLoop v ts = .ok (q.1, q.2) from h1) hf hp hv a
  rcases hvs with rfl | rfl | rfl
  · exact one _ h fun r hr hn => hf r hr hn _ (by simp)
  · exact one _ h fun r hr hn => hf r hr hn _ (by simp)
  · rw [setsLoop] at h
    obtain ⟨q, h1, h⟩ := bind_ok h
    rw [setsLoop] at h
    obtain ⟨r, h2, h⟩ := bind_ok h
    cases h
    obtain ⟨q', h3, h2⟩ := bind_ok h2
    cases h2
    obtain ⟨us, h5⟩ := terms_again (show termsLoop .v4 ts = .ok (q.1, q.2) from h1)
      (fun r hr hn => fits_plain (hf r hr hn _ (by simp)) (hf r hr hn _ (by simp)))
      (show termsLoop .v6 q.1 = .ok (q'.1, q'.2) from h3)
    refine ⟨rfl, ?_⟩
    intro s hs p hp hv a
    simp only [List.mem_cons, List.not_mem_nil, or_false] at hs
    rcases hs with rfl | rfl
    · exact set_decides (show termsLoop .v4 ts = .ok (q.1, q.2) from h1) (fun r hr hn => hf r hr hn _ (by simp)) hp hv a
    · exact set_decides h5 (fun r hr hn => hf r hr hn _ (by simp)) hp hv a

/-! ### filters -/

theorem foldl_family {options : List String} {x : String} : ∀ {order : List String} {init : String},
    (∀ i ∈ order, i ∈ options → i = x) → (init = x ∨ (x ∈ order ∧ x ∈ options)) →
    order.foldl (fun af i => if options.contains i then i else af) init = x
  | [], init, _, h => by
    rcases h with h | h
    · exact h
    · cases h.1
  | i :: is, init, h1, h2 => by
    rw [List.foldl_cons]
    refine foldl_family (fun j hj => h1 j (List.mem_cons_of_mem _ hj)) ?_
    by_cases hi : i ∈ options
    · rw [if_pos (by simpa using hi)]
      exact .inl (h1 i (by simp) hi)
    · rw [if_neg (by simpa using hi)]
      rcases h2 with h | ⟨h, h'⟩
      · exact .inl h
      · rcases List.mem_cons.1 h with rfl | h
        · exact absurd h' hi
        · exact .inr ⟨h, h'⟩

theorem versions_of {order options : List String} {vs : List Ver} (ho : order.Perm ["inet", "inet6", "mixed"])
    (h : Families options vs) : versions (family order options) = vs ∧ (vs = [.v4] ∨ vs = [.v6] ∨ vs = [.v4, .v6]) := by
  have hm : ∀ i, i ∈ order ↔ i = "inet" ∨ i = "inet6" ∨ i = "mixed" := by
    intro i
    rw [ho.mem_iff]
    simp
  unfold family
  rcases h with ⟨h1, h2, rfl⟩ | ⟨h1, h2, h3, rfl⟩ | ⟨h1, h2, h3, rfl⟩
  · rw [foldl_family (x := "inet") _ (.inl rfl)]
    · exact ⟨rfl, .inl rfl⟩
    · intro i hi hi'
      rcases (hm i).1 hi with rfl | rfl | rfl
      · rfl
      · exact absurd hi' h1
      · exact absurd hi' h2
  · rw [foldl_family (x := "inet6") _ (.inr ⟨(hm _).2 (.inr (.inl rfl)), h2⟩)]
    · exact ⟨rfl, .inr (.inl rfl)⟩
    · intro i hi hi'
      rcases (hm i).1 hi with rfl | rfl | rfl
      · exact absurd hi' h1
      · rfl
      · exact absurd hi' h3
  · rw [foldl_family (x := "mixed") _ (.inr ⟨(hm _).2 (.inr (.inr rfl)), h3⟩)]
    · exact ⟨rfl, .inr (.inr rfl)⟩
    · intro i hi hi'
      rcases (hm i).1 hi with rfl | rfl | rfl
      · exact absurd hi' h1
      · exact absurd hi' h2
      · rfl

theorem filters_blocks {order : List String} : ∀ {fs : List OpenConfig.Filter} {k : Nat} {sets : List AclSet},
    filtersLoop order k fs = .ok sets → ∃ bs : List (OpenConfig.Filter × List AclSet), bs.map Prod.fst = fs ∧
      sets = bs.flatMap Prod.snd ∧ ∀ b ∈ bs, ∃ name k k', setsLoop name k b.1.terms (versions (family order b.1.options)) =
        .ok (k', b.2)
  | [], k, sets, h => by
    cases h
    exact ⟨[], rfl, rfl, by simp⟩
  | f :: fs, k, sets, h => by
    rw [filtersLoop] at h
    obtain ⟨q, h1, h⟩ := bind_ok h
    obtain ⟨r, h2, h⟩ := bind_ok h
    cases h
    obtain ⟨bs, rfl, rfl, h3⟩ := filters_blocks h2
    refine ⟨(f, q.2) :: bs, rfl, rfl, ?_⟩
    intro b hb
    rcases List.mem_cons.1 hb with rfl | hb
    · exact ⟨_, k, q.1, h1⟩
    · exact h3 b hb

/-- **C75** (partial): whatever the order in which the families are looked up, the output consists of the sets of the
filters in order, one set for each family, and each set decides about the packets of its family like the terms of its
filter, if they are as in `OFits` for these families. Missing: other terms and headers that name several families, see
the refutations. -/
theorem C75_partial {order : List String} (ho : order.Perm ["inet", "inet6", "mixed"]) {fs : List OpenConfig.Filter}
    {sets : List AclSet} (h : translate order fs = .ok sets) :
    ∃ bs : List (OpenConfig.Filter × List AclSet), bs.map Prod.fst = fs ∧ sets = bs.flatMap Prod.snd ∧
      ∀ b ∈ bs, ∀ vs, Families b.1.options vs → (∀ r ∈ b.1.terms, Rendered r → ∀ v ∈ vs, OFits v r.term) →
        b.2.map AclSet.ver = vs ∧
        ∀ s ∈ b.2, ∀ p, Coherent p → p.ver = s.ver → ∀ a, Decides s p a ↔ PolicyDecides b.1.terms p a := by
  obtain ⟨bs, h1, h2, h3⟩ := filters_blocks h
  refine ⟨bs, h1, h2, fun b hb vs hvs hf => ?_⟩
  obtain ⟨name, k, k', h4⟩ := h3 b hb
  obtain ⟨e, hvs'⟩ := versions_of ho hvs
  rw [e] at h4
  exact sets_decide hvs' h4 hf

/-! ### C76 -/

theorem sets_numbers {name : Ver → Option String} : ∀ {vs : List Ver} {k k' : Nat} {ts : List OTerm} {sets : List AclSet},
    setsLoop name k ts vs = .ok (k', sets) →
    k' = k + (sets.flatMap AclSet.entries).length ∧
      (sets.flatMap AclSet.entries).map Prod.fst = List.range' (k + 1) (sets.flatMap AclSet.entries).length
  | [], k, k', ts, sets, h => by
    cases h
    exact ⟨rfl, rfl⟩
  | v :: vs, k, k', ts, sets, h => by
    rw [setsLoop] at h
    obtain ⟨q, h1, h⟩ := bind_ok h
    obtain ⟨r, h2, h⟩ := bind_ok h
    cases h
    obtain ⟨h3, h4⟩ := sets_numbers (show setsLoop name _ q.1 vs = .ok (r.1, r.2) from h2)
    have hl : (number k q.2).length = q.2.length := by
      conv => rhs; rw [← number_snd (l := q.2) (k := k), List.length_map]
    rw [List.flatMap_cons, List.length_append, List.map_append, h4, number_fst, hl]
    refine ⟨by omega, ?_⟩
    rw [← List.range'_append_1]
    congr 2
    omega

theorem filters_numbers {order : List String} : ∀ {fs : List OpenConfig.Filter} {k : Nat} {sets : List AclSet},
    filtersLoop order k fs = .ok sets →
    (sets.flatMap AclSet.entries).map Prod.fst = List.range' (k + 1) (sets.flatMap AclSet.entries).length
  | [], k, sets, h => by
    cases h
    rfl
  | f :: fs, k, sets, h => by
    rw [filtersLoop] at h
    obtain ⟨q, h1, h⟩ := bind_ok h
    obtain ⟨r, h2, h⟩ := bind_ok h
    cases h
    obtain ⟨h3, h4⟩ := sets_numbers (show setsLoop _ k f.terms _ = .ok (q.1, q.2) from h1)
    have h5 := filters_numbers h2
    rw [List.flatMap_append, List.length_append, List.map_append, h4, h5, ← List.range'_append_1, h3]
    congr 2
    omega

/-- **C76**: whatever the filters and terms, the sequence numbers of all entries of the output, in order, are 1, 2, 3 and so
on, so that no two entries share a number. -/
theorem C76_sequence {order : List String} {fs : List OpenConfig.Filter} {sets : List AclSet}
    (h : translate order fs = .ok sets) :
    (sets.flatMap AclSet.entries).map Prod.fst = List.range' 1 (sets.flatMap AclSet.entries).length := filters_numbers h

end Verif.Props
