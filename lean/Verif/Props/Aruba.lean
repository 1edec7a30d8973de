import Verif.Spec.Aruba
import Verif.Lemmas.Flat
import Verif.Props.OpenConfig
import Verif.Props.JuniperTerm

/-!
Properties of the model of capirca/lib/aruba.py: C108, C109, C110.
-/

namespace Verif.Props
open Verif Verif.Spec Verif.Aruba Policy Aclgenerator Nacaddr
open Verif.OpenConfig (OTerm)

/-- The protocols are rendered faithfully. -/
def ArProtocols (t : Term) : Prop :=
  (t.protocol = [] ∧ t.destinationPort = []) ∨
  ((∃ s ∈ ["icmp", "gre", "esp"], t.protocol = [s]) ∧ t.destinationPort = []) ∨
  (t.protocol ≠ [] ∧ (∀ s ∈ t.protocol, s = "tcp" ∨ s = "udp") ∧ t.destinationPort ≠ [])

/-- The terms that are rendered faithfully, with sets run through in `order`. The tool makes none of these checks itself, not
even that of the keywords, see C109. -/
structure ArFits (order : PortRange → List Nat) (t : Term) : Prop where
  keywords : Aclgenerator.initCheck (tablesFor "aruba") [(["aruba"], [kterm t])] = .ok ()
  active : Active "aruba" (kterm t)
  action : ∃ a, t.action = [a]
  untagged : Untagged t
  family : t.restrictAddressFamily = none
  verbatim : t.verbatim = []
  negate : "negate" ∉ t.option
  srcUser : "source-is-user" ∈ t.option → t.sourceAddress = []
  dstUser : "destination-is-user" ∈ t.option → t.destinationAddress = []
  protocols : ArProtocols t
  ports : ∀ r ∈ t.destinationPort, order r = if r.1 = r.2 then [r.1] else [r.1, r.2]

theorem artables_ok : ∀ e ∈ (tablesFor "aruba").subTokens, e.1 ∈ (tablesFor "aruba").tokens := by decide

theorem armatches {order} {t : Term} (f : ArFits order t) {p : Packet} :
    Matches t p ↔ (t.sourceAddress = [] ∨ Den t.sourceAddress p.ver p.src) ∧
      (t.destinationAddress = [] ∨ Den t.destinationAddress p.ver p.dst) ∧ OneOf t.protocol p.proto ∧
      PortMatch t.destinationPort p.dport ∧ ("source-is-user" ∈ t.option → p.hasOption "source-is-user" = true) ∧
      ("destination-is-user" ∈ t.option → p.hasOption "destination-is-user" = true) := by
  have un := fun (s : String) {v : Val} => unset (g := tablesFor "aruba") artables_ok rfl f.active f.keywords s (v := v)
  have b : Basic t := basic_of (g := tablesFor "aruba") artables_ok rfl (by decide) f.active f.keywords
  have h1 : t.sourceAddressExclude = [] :=
    Cisco.listVal_falsy (un "source_address_exclude" (by simp [attrsOf]) (by decide))
  have h3 : t.destinationAddressExclude = [] :=
    Cisco.listVal_falsy (un "destination_address_exclude" (by simp [attrsOf]) (by decide))
  have h5 : t.protocolExcept = [] :=
    Cisco.wordsVal_falsy (un "protocol_except" (by simp [attrsOf]) (by decide))
  have h6 : t.sourcePort = [] :=
    Cisco.listVal_falsy (un "source_port" (by simp [attrsOf]) (by decide))
  have h8 : t.icmpType = [] :=
    Cisco.wordsVal_falsy (un "icmp_type" (by simp [attrsOf]) (by decide))
  have h9 : t.icmpCode = [] :=
    Cisco.listVal_falsy (un "icmp_code" (by simp [attrsOf]) (by decide))
  have h10 : ∀ o ∈ t.option, o = "source-is-user" ∨ o = "destination-is-user" := by
    intro o ho
    have hk := word_known (g := tablesFor "aruba") artables_ok f.active f.keywords (el := "option") (l := t.option)
      (ok := ["source-is-user", "destination-is-user", "negate"]) (by simp [attrsOf]) rfl (by decide) ho
    simp only [List.mem_cons, List.not_mem_nil, or_false] at hk
    rcases hk with h | h | h
    · exact .inl h
    · exact .inr h
    · subst h
      exact absurd ho f.negate
  rw [matches_basic b f.untagged (.inl f.family)]
  unfold MatchProto
  rw [h1, h3, h5, h6, h8, h9]
  have ho : (∀ o ∈ t.option, p.hasOption o = true) ↔ ("source-is-user" ∈ t.option → p.hasOption "source-is-user" = true) ∧
      ("destination-is-user" ∈ t.option → p.hasOption "destination-is-user" = true) := by
    constructor
    · exact fun h => ⟨h _, h _⟩
    · rintro ⟨h1, h2⟩ o ho
      rcases h10 o ho with rfl | rfl
      · exact h1 ho
      · exact h2 ho
  rw [ho]
  have ha : ∀ (l : List Net) v x, AddrMatch l [] v x ↔ l = [] ∨ Den l v x := by
    intro l v x
    unfold AddrMatch
    simp [Den]
  have hp : PortMatch [] p.sport := .inl rfl
  have hi : OneOf ([] : List String) p.icmpType := .inl rfl
  have hc : OneOf ([] : List Nat) p.icmpCode := .inl rfl
  have hx : (∃ s ∈ ([] : List String), p.proto = s) ↔ False := by simp
  rw [ha, ha]
  simp only [hp, hi, hc, true_and, and_true, List.not_mem_nil, not_false_iff]
  constructor
  · rintro ⟨⟨a, b⟩, c, d, e⟩; exact ⟨a, b, c, d, e⟩
  · rintro ⟨a, b, c, d, e⟩; exact ⟨⟨a, b⟩, c, d, e⟩

/-- The netdestinations of a term have the addresses they should in the configuration. -/
def DestsOk (all : List Dest) (v : Ver) (ds : List Dest) : Prop :=
  ∀ d ∈ ds, ∀ x, Spec.Aruba.DestHas all v d.name x ↔ Den d.nets v x

theorem side_some {v : Ver} {isUser : Bool} {l : List Net} {name : Str} {s : Side} {ds all : List Dest}
    (h : side v isUser l name = some (s, ds)) (hu : isUser = true → l = []) (hd : DestsOk all v ds) {x : Nat} {u : Bool} :
    Spec.Aruba.SideHits all v x u s ↔ (l = [] ∨ Den l v x) ∧ (isUser = true → u = true) := by
  unfold side at h
  split at h
  next e =>
    cases h
    simp [Spec.Aruba.SideHits, e, hu e]
  next e =>
    split at h
    next e2 =>
      cases h
      simp [Spec.Aruba.SideHits, e, List.isEmpty_iff.1 e2]
    next e2 =>
      split at h
      · cases h
      · cases h
        have := hd _ (List.mem_singleton.2 rfl) x
        unfold Spec.Aruba.SideHits
        dsimp only at this ⊢
        rw [this]
        have hn : l ≠ [] := fun h => e2 (by rw [h]; rfl)
        simp only [hn, false_or, e, Bool.false_eq_true, false_implies, and_true]
        exact Cisco.den_filter l v x

theorem side_none {v : Ver} {isUser : Bool} {l : List Net} {name : Str} (h : side v isUser l name = none) {x : Nat} :
    ¬ (l = [] ∨ Den l v x) := by
  unfold side at h
  split at h
  · cases h
  · split at h
    · cases h
    next e2 =>
      split at h
      next e =>
        rintro (h | h)
        · exact e2 (by rw [h]; rfl)
        · rw [← Cisco.den_filter] at h
          obtain ⟨n, hn, _⟩ := h
          have e : (l.filter fun n => n.ver == v) = [] := List.isEmpty_iff.1 e
          rw [e] at hn
          cases hn
      · cases h

theorem portTokens_plain {order : PortRange → List Nat} {ports : List PortRange} : ∀ {l : List String},
    (∀ s ∈ l, s = "tcp" ∨ s = "udp") → ∀ acc,
    portTokens order ports acc ((l.map .str).map protoNumber) =
      .ok (acc ++ l.flatMap fun s => ports.map fun r => .ports s.toList (order r))
  | [], _, acc => by simp [portTokens]
  | s :: l, h, acc => by
    have ih := portTokens_plain (order := order) (ports := ports) (l := l) fun u hu => h u (List.mem_cons_of_mem _ hu)
    have e : ∀ s, s = "tcp" ∨ s = "udp" → protoNumber (.str s) = .str s ∧ fixed (.str s) = none ∧
        lower s.toList = s.toList := by
      rintro s (rfl | rfl) <;> decide
    obtain ⟨e1, e2, e3⟩ := e s (h s List.mem_cons_self)
    rw [List.map_cons, List.map_cons, e1, portTokens, e2]
    dsimp only [portsOf]
    rw [ih, e3, List.flatMap_cons, List.append_assoc]

theorem range_hits {order : PortRange → List Nat} {r : PortRange} (h : order r = if r.1 = r.2 then [r.1] else [r.1, r.2])
    {s : String} {p : Packet} :
    Spec.Aruba.SvcHits p (.ports s.toList (order r)) ↔ p.proto = s ∧ r.1 ≤ p.dport ∧ p.dport ≤ r.2 := by
  rw [h]
  split
  next e =>
    show (_ = String.ofList s.toList ∧ _) ↔ _
    rw [String.ofList_toList]
    have : p.dport = r.1 ↔ r.1 ≤ p.dport ∧ p.dport ≤ r.2 := by omega
    rw [this]
  next e =>
    show (_ = String.ofList s.toList ∧ _) ↔ _
    rw [String.ofList_toList]

theorem services_hits {order : PortRange → List Nat} {t : Term} (f : ArFits order t) {ps : List Proto}
    (hps : termProtocols (t.protocol.map .str) = .ok ps) {svcs : List Svc} (h : services order t ps = .ok svcs)
    {p : Packet} : (∃ s ∈ svcs, Spec.Aruba.SvcHits p s) ↔ OneOf t.protocol p.proto ∧ PortMatch t.destinationPort p.dport := by
  unfold termProtocols at hps
  split at hps
  · cases hps
  cases hps
  unfold services at h
  rcases f.protocols with ⟨e1, e2⟩ | ⟨⟨s, hs, e1⟩, e2⟩ | ⟨e1, e2, e3⟩
  · rw [e1] at h ⊢
    rw [e2]
    cases h
    simp [Spec.Aruba.SvcHits, OneOf, PortMatch]
  · rw [e1] at h ⊢
    rw [e2] at h ⊢
    have key : ∀ s ∈ ["icmp", "gre", "esp"], ∃ n, fixed (protoNumber (.str s)) = some n ∧ ∀ i ∈ iana, i.2 = n ↔ i.1 = s := by
      intro s hs
      simp only [List.mem_cons, List.not_mem_nil, or_false] at hs
      rcases hs with rfl | rfl | rfl
      · exact ⟨1, by decide, by decide⟩
      · exact ⟨47, by decide, by decide⟩
      · exact ⟨50, by decide, by decide⟩
    have key2 : ∀ s ∈ ["icmp", "gre", "esp"], s ∈ iana.map Prod.fst := by decide
    obtain ⟨n, h1, h2⟩ := key s hs
    simp only [List.map_cons, List.map_nil, List.isEmpty_cons, Bool.false_eq_true, if_false, portTokens, h1] at h
    cases h
    have : (p.proto, n) ∈ iana ↔ p.proto = s := by
      constructor
      · intro hm
        exact (h2 _ hm).1 rfl
      · intro e
        obtain ⟨i, hi, e'⟩ := List.mem_map.1 (key2 s hs)
        have := (h2 i hi).2 e'
        rw [e, ← e', ← this]
        exact hi
    simp [Spec.Aruba.SvcHits, OneOf, PortMatch, this]
  · have hne : (((t.protocol.map Proto.str).map protoNumber).isEmpty) = false := by
      cases hp : t.protocol with
      | nil => exact absurd hp e1
      | cons => rfl
    rw [hne] at h
    simp only [Bool.false_eq_true, if_false, portTokens_plain e2, List.nil_append] at h
    cases h
    simp only [OneOf, PortMatch, e1, e3, false_or]
    constructor
    · rintro ⟨v, hv, h⟩
      obtain ⟨s, hs, hv⟩ := List.mem_flatMap.1 hv
      obtain ⟨r, hr, rfl⟩ := List.mem_map.1 hv
      obtain ⟨h1, h2⟩ := (range_hits (f.ports r hr)).1 h
      exact ⟨h1 ▸ hs, r, hr, h2⟩
    · rintro ⟨hs, r, hr, h2⟩
      exact ⟨_, List.mem_flatMap.2 ⟨_, hs, List.mem_map.2 ⟨r, hr, rfl⟩⟩, (range_hits (f.ports r hr)).2 ⟨rfl, h2⟩⟩

theorem ar_action {order : PortRange → List Nat} {t : Term} (f : ArFits order t) {w a : String} (hw : t.action = [w]) :
    actionMap.lookup w = some a ↔ (w, a) ∈ Spec.Aruba.names := by
  have hk := word_known (g := tablesFor "aruba") artables_ok f.active f.keywords (el := "action") (l := t.action)
    (ok := ["accept", "deny"]) (by simp [attrsOf]) rfl (by decide) (w := w) (by rw [hw]; exact List.mem_singleton.2 rfl)
  simp only [List.mem_cons, List.not_mem_nil, or_false] at hk
  rcases hk with rfl | rfl
  · simp [actionMap, Spec.Aruba.names, eq_comm]
  · simp [actionMap, List.lookup, Spec.Aruba.names, eq_comm]

theorem oneTerm_hits {order : PortRange → List Nat} {v : Ver} {t : OTerm} (f : t.expired = false → ArFits order t.term)
    {ds all : List Dest} {ls : List Aruba.Line} (h : oneTerm order v t = .ok (ds, ls)) (hd : DestsOk all v ds) {p : Packet}
    (hp : p.ver = v) (a : String) :
    (∃ l ∈ ls, Spec.Aruba.Hits all p l a) ↔ Flat.Wants "aruba" Spec.Aruba.names t.expired t.term p a := by
  unfold oneTerm at h
  split at h
  next e =>
    cases h
    unfold Flat.Wants
    simp [e]
  next e =>
    have e : t.expired = false := by simpa using e
    have f := f e
    obtain ⟨ps, hps, h⟩ := bind_ok h
    have hwants : Flat.Wants "aruba" Spec.Aruba.names t.expired t.term p a ↔ Matches t.term p ∧
        ∃ w, t.term.action = [w] ∧ (w, a) ∈ Spec.Aruba.names := by
      unfold Flat.Wants
      exact ⟨fun h => h.2, fun h => ⟨⟨e, f.active⟩, h⟩⟩
    rw [hwants, armatches f]
    clear hwants
    have hsu : (t.term.option.contains "source-is-user") = true ↔ "source-is-user" ∈ t.term.option := by simp
    have hdu : (t.term.option.contains "destination-is-user") = true ↔ "destination-is-user" ∈ t.term.option := by simp
    rw [← hsu, ← hdu]
    unfold render at h
    rw [f.verbatim] at h
    simp only [List.isEmpty_nil, Bool.not_true, Bool.false_eq_true, if_false] at h
    split at h
    next h1 =>
      cases h
      have := side_none h1 (x := p.src)
      rw [hp]
      refine iff_of_false (by simp) ?_
      rintro ⟨⟨h, _⟩, _⟩
      exact this h
    next s d1 h1 =>
      split at h
      next h2 =>
        cases h
        have := side_none h2 (x := p.dst)
        rw [hp]
        refine iff_of_false (by simp) ?_
        rintro ⟨⟨_, h, _⟩, _⟩
        exact this h
      next d d2 h2 =>
        obtain ⟨svcs, h3, h⟩ := bind_ok h
        obtain ⟨ls', h4, h⟩ := bind_ok h
        cases h
        have k1 := side_some h1 (fun e => f.srcUser (hsu.1 e)) (fun d h => hd d (List.mem_append_left _ h)) (x := p.src)
          (u := p.hasOption "source-is-user")
        have k2 := side_some h2 (fun e => f.dstUser (hdu.1 e)) (fun d h => hd d (List.mem_append_right _ h)) (x := p.dst)
          (u := p.hasOption "destination-is-user")
        have k3 := services_hits f hps h3 (p := p)
        obtain ⟨w, hw⟩ := f.action
        have hneg : t.term.option.contains "negate" = false := by
          cases hc : t.term.option.contains "negate" with
          | false => rfl
          | true => exact absurd (List.contains_iff_mem.1 hc) f.negate
        have hrule : ∀ svc, ruleOf v t.term s d svc = .ok (.rule ⟨false, v == .v6, s, d, svc, actionMap.lookup w⟩) := by
          intro svc
          unfold ruleOf
          rw [hw, hneg]
        have hact := ar_action f hw (a := a)
        have hv6 : (v == Ver.v6) = true ↔ p.ver = .v6 := by rw [hp]; simp
        constructor
        · rintro ⟨l, hl, r, rfl, _, g2, g3, g4, g5, g6⟩
          obtain ⟨svc, hsvc, hl⟩ := (listM_mem h4 _).1 hl
          rw [hrule] at hl
          cases hl
          rw [hp] at g4 g5 ⊢
          have g4 := k1.1 g4
          have g5 := k2.1 g5
          have g6 := k3.1 ⟨svc, hsvc, g6⟩
          exact ⟨⟨g4.1, g5.1, g6.1, g6.2, g4.2, g5.2⟩, w, hw, hact.1 g2⟩
        · rintro ⟨⟨g1, g2, g3, g4, g5, g6⟩, w', hw', g7⟩
          rw [hw] at hw'
          cases hw'
          rw [hp] at g1 g2
          obtain ⟨svc, hsvc, g8⟩ := k3.2 ⟨g3, g4⟩
          refine ⟨_, (listM_mem h4 _).2 ⟨svc, hsvc, hrule svc⟩, _, rfl, rfl, hact.2 g7, hv6, ?_, ?_, g8⟩
          · rw [hp]; exact k1.2 ⟨g1, g5⟩
          · rw [hp]; exact k2.2 ⟨g2, g6⟩


/-- What a term contributes, nothing if it raises. -/
def destsFor (order : PortRange → List Nat) (e : Bool × OTerm) : List Dest :=
  match oneTerm order (if e.1 then .v6 else .v4) e.2 with
  | .ok r => r.1
  | .error _ => []

theorem listM_flat {α β γ : Type} {f : α → Except Err β} {g : β → List γ} : ∀ {l : List α} {r : List β}, listM f l = .ok r →
    r.flatMap g = l.flatMap fun a => match f a with | .ok x => g x | .error _ => []
  | [], r, h => by rw [listM] at h; cases h; rfl
  | a :: l, r, h => by
    rw [listM] at h
    obtain ⟨x, h1, h⟩ := bind_ok h
    obtain ⟨xs, h2, h⟩ := bind_ok h
    cases h
    rw [List.flatMap_cons, List.flatMap_cons, listM_flat h2, h1]

theorem destsOf_eq {order : PortRange → List Nat} : ∀ {fs : List Aruba.Filter} {bs : List Aruba.Block},
    translate order fs = .ok bs →
    Spec.Aruba.destsOf bs = (Spec.Aruba.termsOf fs).flatMap (destsFor order)
  | [], bs, h => by cases h; rfl
  | f :: fs, bs, h => by
    unfold translate at h
    rw [listM] at h
    obtain ⟨b, h1, h⟩ := bind_ok h
    obtain ⟨bs', h2, h⟩ := bind_ok h
    cases h
    have ih := destsOf_eq h2
    unfold Spec.Aruba.destsOf Spec.Aruba.termsOf at ih ⊢
    rw [List.flatMap_cons, List.flatMap_cons, List.flatMap_append, ih]
    congr 1
    unfold oneFilter at h1
    obtain ⟨l, h3, h1⟩ := bind_ok h1
    cases h1
    dsimp only
    rw [listM_flat h3, List.flatMap_map]
    congr 1
    funext t
    unfold destsFor family
    dsimp only
    simp only [List.contains_iff_mem, decide_eq_true_eq]
    split <;> split <;> simp_all

theorem side_dests {v : Ver} {isUser : Bool} {l : List Net} {name : Str} {s : Side} {ds : List Dest}
    (h : side v isUser l name = some (s, ds)) :
    (ds = [] ∧ ∀ n, s ≠ .alias n) ∨
    (s = .alias name ∧ ds = [⟨v == .v6, name, l.filter fun n => n.ver == v⟩] ∧ (l.filter fun n => n.ver == v) ≠ []) := by
  unfold side at h
  split at h
  · cases h; exact .inl ⟨rfl, by simp⟩
  · split at h
    · cases h; exact .inl ⟨rfl, by simp⟩
    · split at h
      · cases h
      next e =>
        cases h
        exact .inr ⟨rfl, rfl, fun h => e (by show (List.filter _ l).isEmpty = true; rw [h]; rfl)⟩

/-- The netdestinations of a term and the aliases of its rules. -/
theorem oneTerm_dests {order : PortRange → List Nat} {v : Ver} {t : OTerm} {ds : List Dest} {ls : List Aruba.Line}
    (h : oneTerm order v t = .ok (ds, ls)) :
    ∃ d1 d2, ds = d1 ++ d2 ∧
      (d1 = [] ∨ d1 = [⟨v == .v6, Spec.Aruba.lowered t.term.name ++ "_src".toList,
        t.term.sourceAddress.filter fun n => n.ver == v⟩]) ∧
      (d2 = [] ∨ d2 = [⟨v == .v6, Spec.Aruba.lowered t.term.name ++ "_dst".toList,
        t.term.destinationAddress.filter fun n => n.ver == v⟩]) ∧
      ∀ r, Aruba.Line.rule r ∈ ls → r.v6 = (v == .v6) ∧
        (∀ n, r.src = .alias n → ∃ d ∈ d1, d.name = n ∧ d.nets ≠ []) ∧ ∀ n, r.dst = .alias n → ∃ d ∈ d2, d.name = n ∧ d.nets ≠ [] := by
  have none : ∃ d1 d2 : List Dest, ([] : List Dest) = d1 ++ d2 ∧ d1 = [] ∧ d2 = [] := ⟨[], [], rfl, rfl, rfl⟩
  unfold oneTerm at h
  split at h
  · cases h
    exact ⟨[], [], rfl, .inl rfl, .inl rfl, by simp⟩
  · obtain ⟨ps, _, h⟩ := bind_ok h
    unfold render at h
    split at h
    · cases h
      refine ⟨[], [], rfl, .inl rfl, .inl rfl, ?_⟩
      intro r hr
      obtain ⟨_, _, e⟩ := List.mem_map.1 hr
      cases e
    · split at h
      · cases h
        exact ⟨[], [], rfl, .inl rfl, .inl rfl, by simp⟩
      next s d1 h1 =>
        split at h
        · cases h
          exact ⟨[], [], rfl, .inl rfl, .inl rfl, by simp⟩
        next d d2 h2 =>
          obtain ⟨svcs, _, h⟩ := bind_ok h
          obtain ⟨ls', h4, h⟩ := bind_ok h
          cases h
          have k1 := side_dests h1
          have k2 := side_dests h2
          refine ⟨d1, d2, rfl, ?_, ?_, ?_⟩
          · rcases k1 with ⟨h, _⟩ | ⟨_, h, _⟩
            · exact .inl h
            · exact .inr h
          · rcases k2 with ⟨h, _⟩ | ⟨_, h, _⟩
            · exact .inl h
            · exact .inr h
          · intro r hr
            obtain ⟨svc, _, hl⟩ := (listM_mem h4 _).1 hr
            unfold ruleOf at hl
            split at hl
            · cases hl
            · have hl := Aruba.Line.rule.inj (Except.ok.inj hl)
              subst hl
              refine ⟨rfl, ?_, ?_⟩
              · intro n hn
                dsimp only at hn
                rcases k1 with ⟨_, h⟩ | ⟨h, e, hne⟩
                · exact absurd hn (h n)
                · rw [h] at hn
                  cases hn
                  exact ⟨_, by rw [e]; exact List.mem_singleton.2 rfl, rfl, hne⟩
              · intro n hn
                dsimp only at hn
                rcases k2 with ⟨_, h⟩ | ⟨h, e, hne⟩
                · exact absurd hn (h n)
                · rw [h] at hn
                  cases hn
                  exact ⟨_, by rw [e]; exact List.mem_singleton.2 rfl, rfl, hne⟩

theorem destsFor_key {order : PortRange → List Nat} {e : Bool × OTerm} {d : Dest} (h : d ∈ destsFor order e) :
    d.v6 = e.1 ∧ (d.name = Spec.Aruba.lowered e.2.term.name ++ "_src".toList ∨
      d.name = Spec.Aruba.lowered e.2.term.name ++ "_dst".toList) := by
  unfold destsFor at h
  split at h
  next r hr =>
    obtain ⟨d1, d2, e1, e2, e3, _⟩ := oneTerm_dests (ds := r.1) (ls := r.2) hr
    have hv : ((if e.1 = true then Ver.v6 else Ver.v4) == Ver.v6) = e.1 := by cases e.1 <;> rfl
    rw [hv] at e2 e3
    rw [e1] at h
    rcases List.mem_append.1 h with h | h
    · rcases e2 with rfl | rfl
      · cases h
      · rw [List.mem_singleton.1 h]
        exact ⟨rfl, .inl rfl⟩
    · rcases e3 with rfl | rfl
      · cases h
      · rw [List.mem_singleton.1 h]
        exact ⟨rfl, .inr rfl⟩
  · cases h

theorem suffix_ne {a b : Str} : a ++ "_src".toList ≠ b ++ "_dst".toList := by
  intro h
  have := (List.append_inj' h (by decide)).2
  revert this
  decide

theorem destsFor_inj {order : PortRange → List Nat} {e e' : Bool × OTerm} {d d' : Dest} (h : d ∈ destsFor order e)
    (h' : d' ∈ destsFor order e') (hk : (d.v6, d.name) = (d'.v6, d'.name)) :
    (e.1, Spec.Aruba.lowered e.2.term.name) = (e'.1, Spec.Aruba.lowered e'.2.term.name) := by
  obtain ⟨h1, h2⟩ := destsFor_key h
  obtain ⟨h1', h2'⟩ := destsFor_key h'
  have hv := congrArg Prod.fst hk
  have hn := congrArg Prod.snd hk
  dsimp only at hv hn
  have : Spec.Aruba.lowered e.2.term.name = Spec.Aruba.lowered e'.2.term.name := by
    rcases h2 with h2 | h2 <;> rcases h2' with h2' | h2' <;> rw [h2, h2'] at hn
    · exact (List.append_inj' hn rfl).1
    · exact absurd hn suffix_ne
    · exact absurd hn.symm suffix_ne
    · exact (List.append_inj' hn rfl).1
  rw [this, ← h1, ← h1', hv]

theorem destsFor_nodup {order : PortRange → List Nat} (e : Bool × OTerm) :
    ((destsFor order e).map fun d => (d.v6, d.name)).Nodup := by
  unfold destsFor
  split
  next r hr =>
    obtain ⟨d1, d2, e1, e2, e3, _⟩ := oneTerm_dests (ds := r.1) (ls := r.2) hr
    rw [e1]
    rcases e2 with rfl | rfl <;> rcases e3 with rfl | rfl
    · exact List.nodup_nil
    · simp
    · simp
    · simp only [List.singleton_append, List.map_cons, List.map_nil, List.nodup_cons, List.mem_singleton, List.not_mem_nil,
        not_false_iff, List.nodup_nil, and_true]
      intro h
      exact suffix_ne (congrArg Prod.snd h)
  · exact List.nodup_nil

theorem key_inj {α β : Type} {f : α → β} : ∀ {l : List α}, (l.map f).Nodup → ∀ {a b}, a ∈ l → b ∈ l → f a = f b → a = b
  | [], _, _, _, h, _, _ => by cases h
  | x :: l, h, a, b, ha, hb, e => by
    rw [List.map_cons, List.nodup_cons] at h
    rcases List.mem_cons.1 ha with ha | ha
    · rcases List.mem_cons.1 hb with hb | hb
      · rw [ha, hb]
      · rw [ha] at e
        exact absurd (List.mem_map.2 ⟨b, hb, e.symm⟩) h.1
    · rcases List.mem_cons.1 hb with hb | hb
      · rw [hb] at e
        exact absurd (List.mem_map.2 ⟨a, ha, e⟩) h.1
      · exact key_inj h.2 ha hb e

theorem filter_block {order : PortRange → List Nat} {fs : List Aruba.Filter} {bs : List Aruba.Block} :
    translate order fs = .ok bs → (fs.map fun f => f.options.head?).Nodup → ∀ {f}, f ∈ fs → ∀ {name}, f.options.head? = some name →
    ∃ b, oneFilter order f = .ok b ∧ Spec.Aruba.linesOf bs name = b.lines := by
  unfold translate Spec.Aruba.linesOf
  have nm : ∀ {f b}, oneFilter order f = .ok b → b.name = f.options.head? := by
    intro f b h
    unfold oneFilter at h
    obtain ⟨l, _, h⟩ := bind_ok h
    cases h
    rfl
  induction fs generalizing bs with
  | nil => intro _ _ f h; cases h
  | cons g fs ih =>
    intro h hn f hf name he
    rw [listM] at h
    obtain ⟨b, h1, h⟩ := bind_ok h
    obtain ⟨bs', h2, h⟩ := bind_ok h
    cases h
    rw [List.map_cons, List.nodup_cons] at hn
    rcases List.mem_cons.1 hf with rfl | hf
    · refine ⟨b, h1, ?_⟩
      have : (bs'.filter fun b => b.name = some name) = [] := by
        rw [List.filter_eq_nil_iff]
        intro c hc hcn
        obtain ⟨g, hg, hgc⟩ := (listM_mem h2 c).1 hc
        have := nm hgc
        rw [of_decide_eq_true hcn] at this
        exact hn.1 (List.mem_map.2 ⟨g, hg, by rw [he, this]⟩)
      rw [List.filter_cons_of_pos (by simp [nm h1, he]), this]
      simp
    · obtain ⟨c, hc1, hc2⟩ := ih h2 hn.2 hf he
      refine ⟨c, hc1, ?_⟩
      rw [List.filter_cons_of_neg]
      · exact hc2
      · rw [nm h1]
        simp only [decide_eq_true_eq]
        intro hh
        exact hn.1 (List.mem_map.2 ⟨f, hf, by rw [he, hh]⟩)

/-- **C108** (partial): if the names of the filters differ and the names of the terms of one family differ, upper and lower
case not counted, then the access list of a filter, with the netdestinations of the whole configuration, decides about the
packets of the filter's family like the terms of the filter, if these are as in `ArFits` or expired. Missing: other terms and
filters, see the refutations. -/
theorem C108_partial {order : PortRange → List Nat} {fs : List Aruba.Filter} {bs : List Aruba.Block}
    (h : translate order fs = .ok bs) (hf : (fs.map fun f => f.options.head?).Nodup)
    (ht : ((Spec.Aruba.termsOf fs).map fun e => (e.1, Spec.Aruba.lowered e.2.term.name)).Nodup) {f : Aruba.Filter} (hm : f ∈ fs)
    {name : String} (hn : f.options.head? = some name) (hfit : ∀ t ∈ f.terms, t.expired = false → ArFits order t.term)
    {p : Packet} (hp : p.ver = .v6 ↔ "inet6" ∈ f.options) (action : String) :
    Spec.Aruba.Decides bs name p action ↔ Spec.Aruba.FilterDecides f.terms p action := by
  obtain ⟨b, h1, h2⟩ := filter_block h hf hm hn
  unfold Spec.Aruba.Decides Spec.Aruba.FilterDecides
  rw [h2]
  have hv : p.ver = family f := by
    unfold family
    by_cases e : "inet6" ∈ f.options
    · rw [hp.2 e, if_pos (List.contains_iff_mem.2 e)]
    · rw [if_neg (fun h => e (List.contains_iff_mem.1 h))]
      cases hp' : p.ver with
      | v4 => rfl
      | v6 => exact absurd (hp.1 hp') e
  unfold oneFilter at h1
  obtain ⟨l, h3, h1⟩ := bind_ok h1
  cases h1
  dsimp only
  obtain ⟨hlen, hz⟩ := listM_zip h3
  have key := Lemmas.first_blocks (hit := Spec.Aruba.Hits (Spec.Aruba.destsOf bs) p)
    (want := fun (r : OTerm) a => Flat.Wants "aruba" Spec.Aruba.names r.expired r.term p a)
    (ts := (f.terms.zip l).map fun e => (e.1, e.2.2)) (v := action) ?_ ?_
  · have e1 : ((f.terms.zip l).map fun e => (e.1, e.2.2)).map Prod.fst = f.terms := by
      rw [List.map_map]
      exact List.map_fst_zip (by omega)
    have e2 : ((f.terms.zip l).map fun e => (e.1, e.2.2)).flatMap Prod.snd = l.flatMap Prod.snd := by
      rw [List.flatMap_map]
      have : (f.terms.zip l).map Prod.snd = l := List.map_snd_zip (by omega)
      conv => rhs; rw [← this, List.flatMap_map]
    rw [e1, e2] at key
    exact key
  · rintro t v w ⟨_, _, x, e, h⟩ ⟨_, _, y, e', h'⟩
    rw [e] at e'
    cases e'
    simp only [Spec.Aruba.names, List.mem_cons, Prod.mk.injEq, List.not_mem_nil, or_false] at h h'
    rcases h with ⟨rfl, rfl⟩ | ⟨rfl, rfl⟩ <;> rcases h' with ⟨h, rfl⟩ | ⟨h, rfl⟩ <;> first | rfl | (revert h; decide)
  · intro e he w
    obtain ⟨⟨t, ds, ls⟩, hm', rfl⟩ := List.mem_map.1 he
    have hok := hz _ hm'
    have htm : t ∈ f.terms := (List.of_mem_zip hm').1
    dsimp only at hok ⊢
    refine oneTerm_hits (hfit t htm) hok ?_ hv w
    have hin : (decide ("inet6" ∈ f.options), t) ∈ Spec.Aruba.termsOf fs :=
      List.mem_flatMap.2 ⟨f, hm, List.mem_map.2 ⟨t, htm, rfl⟩⟩
    have hfam : (if decide ("inet6" ∈ f.options) then Ver.v6 else Ver.v4) = family f := by
      unfold family
      simp
    have hfor : destsFor order (decide ("inet6" ∈ f.options), t) = ds := by
      unfold destsFor
      dsimp only
      rw [hfam, hok]
    intro d hd x
    have hd' := hd
    rw [← hfor] at hd'
    obtain ⟨hk1, hk2⟩ := destsFor_key hd'
    have hv6 : d.v6 = true ↔ family f = .v6 := by
      rw [hk1, ← hfam]
      dsimp only
      cases decide ("inet6" ∈ f.options) <;> simp
    constructor
    · rintro ⟨c, hc, g1, g2, g3⟩
      rw [destsOf_eq h] at hc
      obtain ⟨e, he, hc⟩ := List.mem_flatMap.1 hc
      have hkey : (d.v6, d.name) = (c.v6, c.name) := by
        rw [g1]
        congr 1
        exact Bool.eq_iff_iff.2 (hv6.trans g2.symm)
      have := key_inj ht hin he (destsFor_inj hd' hc hkey)
      subst this
      have := key_inj (destsFor_nodup _) hd' hc hkey
      subst this
      exact g3
    · intro hx
      refine ⟨d, ?_, rfl, hv6, hx⟩
      rw [destsOf_eq h]
      exact List.mem_flatMap.2 ⟨_, hin, hd'⟩

/-- **C110**: every alias a rule uses is defined, in the same block, by a netdestination of the family of the rule that is not
empty. -/
theorem C110_defined {order : PortRange → List Nat} {fs : List Aruba.Filter} {bs : List Aruba.Block}
    (h : translate order fs = .ok bs) {b : Aruba.Block} (hb : b ∈ bs) {r : Aruba.Rule} (hr : Aruba.Line.rule r ∈ b.lines)
    {n : Str} (hn : r.src = .alias n ∨ r.dst = .alias n) : ∃ d ∈ b.dests, d.name = n ∧ d.v6 = r.v6 ∧ d.nets ≠ [] := by
  obtain ⟨f, hf, h1⟩ := (listM_mem h b).1 hb
  unfold oneFilter at h1
  obtain ⟨l, h2, h1⟩ := bind_ok h1
  cases h1
  obtain ⟨e, he, hr⟩ := List.mem_flatMap.1 hr
  obtain ⟨t, _, h3⟩ := (listM_mem h2 e).1 he
  obtain ⟨d1, d2, e1, e2, e3, e4⟩ := oneTerm_dests (ds := e.1) (ls := e.2) h3
  obtain ⟨g1, g2, g3⟩ := e4 r hr
  rcases hn with hn | hn
  · obtain ⟨d, hd, k1, k2⟩ := g2 n hn
    refine ⟨d, List.mem_flatMap.2 ⟨e, he, by rw [e1]; exact List.mem_append_left _ hd⟩, k1, ?_, k2⟩
    rcases e2 with rfl | rfl
    · cases hd
    · rw [List.mem_singleton.1 hd, g1]
  · obtain ⟨d, hd, k1, k2⟩ := g3 n hn
    refine ⟨d, List.mem_flatMap.2 ⟨e, he, by rw [e1]; exact List.mem_append_right _ hd⟩, k1, ?_, k2⟩
    rcases e3 with rfl | rfl
    · cases hd
    · rw [List.mem_singleton.1 hd, g1]

/-- **C110** (partial): no netdestination is defined twice, if the names of the terms of one family differ, upper and lower case
not counted. Missing: other terms, see the refutation. -/
theorem C110_once_partial {order : PortRange → List Nat} {fs : List Aruba.Filter} {bs : List Aruba.Block}
    (h : translate order fs = .ok bs)
    (ht : ((Spec.Aruba.termsOf fs).map fun e => (e.1, Spec.Aruba.lowered e.2.term.name)).Nodup) :
    ((Spec.Aruba.destsOf bs).map fun d => (d.v6, d.name)).Nodup := by
  rw [destsOf_eq h, List.map_flatMap]
  unfold List.Nodup at ht ⊢
  rw [List.pairwise_flatMap]
  refine ⟨fun e _ => destsFor_nodup e, ?_⟩
  rw [List.pairwise_map] at ht
  refine ht.imp ?_
  intro e e' hne x hx y hy hxy
  obtain ⟨d, hd, rfl⟩ := List.mem_map.1 hx
  obtain ⟨d', hd', rfl⟩ := List.mem_map.1 hy
  exact hne (destsFor_inj hd hd' hxy)

end Verif.Props
