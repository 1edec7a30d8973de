import Verif.Spec.Windows
import Verif.Lemmas.Basic
import Verif.Lemmas.Flat
import Verif.Lemmas.FirstMatch
import Verif.Lemmas.IptablesTerm
import Verif.Props.JuniperTerm

/-!
C118, C119: what the rules of capirca/lib/windows_advfirewall.py make the Windows firewall do.
-/

namespace Verif.Props
open Verif Verif.Spec Verif.Windows Policy Aclgenerator Nacaddr
open Verif.Cisco (RTerm)

/-! ### what the generators share -/

/-- The term has an option that makes the generators skip it. -/
def forReplies (t : Term) : Prop := "established" ∈ t.option ∨ "tcp-established" ∈ t.option

theorem prepareTerms_mem {name : Option String} : ∀ {ts : List RTerm} {seen : List Str} {ws : List WTerm},
    prepareTerms name seen ts = .ok ws → ∀ w, w ∈ ws ↔
      ∃ r ∈ ts, r.expired = false ∧ ¬ forReplies r.term ∧ initTerm name r.term = .ok w
  | [], seen, ws, h, w => by
    cases h
    simp
  | r :: rs, seen, ws, h, w => by
    unfold prepareTerms at h
    have skip : (r.expired = true ∨ forReplies r.term) → prepareTerms name (r.term.name :: seen) rs = .ok ws →
        (w ∈ ws ↔ ∃ x ∈ r :: rs, x.expired = false ∧ ¬ forReplies x.term ∧ initTerm name x.term = .ok w) := by
      intro hs h
      rw [prepareTerms_mem h w]
      constructor
      · rintro ⟨x, hx, h⟩
        exact ⟨x, List.mem_cons_of_mem _ hx, h⟩
      · rintro ⟨x, hx, h1, h2, h3⟩
        rcases List.mem_cons.1 hx with rfl | hx
        · rcases hs with hs | hs
          · rw [hs] at h1
            cases h1
          · exact absurd hs h2
        · exact ⟨x, hx, h1, h2, h3⟩
    split at h
    · cases h
    · split at h
      next he => exact skip (.inl he) h
      next he =>
        split at h
        next ho =>
          refine skip (.inr ?_) h
          simpa [forReplies] using ho
        next ho =>
          obtain ⟨t, h1, h⟩ := bind_ok h
          obtain ⟨ts, h2, h⟩ := bind_ok h
          cases h
          have ho' : ¬ forReplies r.term := by
            unfold forReplies
            simpa using ho
          have ih := prepareTerms_mem h2 w
          rw [List.mem_cons, ih]
          constructor
          · rintro (rfl | ⟨x, hx, h⟩)
            · exact ⟨r, List.mem_cons_self, by simpa using he, ho', h1⟩
            · exact ⟨x, List.mem_cons_of_mem _ hx, h⟩
          · rintro ⟨x, hx, h3, h4, h5⟩
            rcases List.mem_cons.1 hx with rfl | hx
            · rw [h1] at h5
              cases h5
              exact .inl rfl
            · exact .inr ⟨x, hx, h3, h4, h5⟩

theorem prepareTerms_each {name : Option String} : ∀ {ts : List RTerm} {seen : List Str} {ws : List WTerm},
    prepareTerms name seen ts = .ok ws → ∀ r ∈ ts, r.expired = false → ¬ forReplies r.term → ∃ w, initTerm name r.term = .ok w
  | [], seen, ws, h, r, hr, _, _ => by cases hr
  | x :: rs, seen, ws, h, r, hr, he, hf => by
    unfold prepareTerms at h
    split at h
    · cases h
    · split at h
      next hx =>
        rcases List.mem_cons.1 hr with rfl | hr
        · rw [he] at hx
          cases hx
        · exact prepareTerms_each h r hr he hf
      next hx =>
        split at h
        next ho =>
          rcases List.mem_cons.1 hr with rfl | hr
          · exact absurd (by simpa [forReplies] using ho) hf
          · exact prepareTerms_each h r hr he hf
        next ho =>
          obtain ⟨t, h1, h⟩ := bind_ok h
          obtain ⟨ts, h2, h⟩ := bind_ok h
          rcases List.mem_cons.1 hr with rfl | hr
          · exact ⟨t, h1⟩
          · exact prepareTerms_each h2 r hr he hf

theorem win_prepare_mem {afs : List String} : ∀ {fs : List Windows.Filter} {d : Option String} {ps : List Prepared},
    prepare afs d fs = .ok ps →
      (∀ p ∈ ps, ∃ f ∈ fs, f.here = true ∧ ∃ d, prepareFilter afs d f = .ok p) ∧
      (∀ f ∈ fs, f.here = true → ∃ d, ∃ p ∈ ps, prepareFilter afs d f = .ok p)
  | [], d, ps, h => by
    cases h
    simp
  | f :: fs, d, ps, h => by
    unfold prepare at h
    split at h
    next hh =>
      obtain ⟨h1, h2⟩ := win_prepare_mem h
      refine ⟨fun p hp => ?_, fun g hg hg' => ?_⟩
      · obtain ⟨g, hg, h⟩ := h1 p hp
        exact ⟨g, List.mem_cons_of_mem _ hg, h⟩
      · rcases List.mem_cons.1 hg with rfl | hg
        · rw [hg'] at hh
          cases hh
        · exact h2 g hg hg'
    next hh =>
      obtain ⟨p, h1, h⟩ := bind_ok h
      obtain ⟨qs, h2, h⟩ := bind_ok h
      cases h
      obtain ⟨h3, h4⟩ := win_prepare_mem h2
      refine ⟨fun q hq => ?_, fun g hg hg' => ?_⟩
      · rcases List.mem_cons.1 hq with rfl | hq
        · exact ⟨f, List.mem_cons_self, by simpa using hh, _, h1⟩
        · obtain ⟨g, hg, h⟩ := h3 q hq
          exact ⟨g, List.mem_cons_of_mem _ hg, h⟩
      · rcases List.mem_cons.1 hg with rfl | hg
        · exact ⟨_, p, List.mem_cons_self, h1⟩
        · obtain ⟨d, q, hq, h⟩ := h4 g hg hg'
          exact ⟨d, q, List.mem_cons_of_mem _ hq, h⟩

theorem prepareFilter_ok {afs : List String} {d : Option String} {f : Windows.Filter} {p : Prepared}
    (h : prepareFilter afs d f = .ok p) :
    p.name = f.options.head? ∧ familyOf afs f.options.tail = .ok p.family ∧
      prepareTerms f.options.head? [] f.terms = .ok p.terms ∧ p.default = defaultOf d f.options := by
  unfold prepareFilter at h
  split at h
  · cases h
  · obtain ⟨fam, h1, h⟩ := bind_ok h
    obtain ⟨ts, h2, h⟩ := bind_ok h
    cases h
    exact ⟨rfl, h1, h2, rfl⟩

theorem initTerm_ok {name : Option String} {t : Term} {w : WTerm} (h : initTerm name t = .ok w) :
    ∃ n, name = some n ∧ w = ⟨t, t.protocol.map fun s => protoNumber (.str s)⟩ := by
  unfold initTerm at h
  obtain ⟨ps, h1, h⟩ := bind_ok h
  split at h
  · cases h
  next n _ =>
    cases h
    refine ⟨n, rfl, ?_⟩
    unfold termProtocols at h1
    split at h1
    · cases h1
    · cases h1
      rw [List.map_map]
      rfl

theorem adv_family {opts : List String} {fam : String} (h : familyOf ["inet", "inet6"] opts = .ok fam) :
    (fam = "inet" ∨ fam = "inet6") ∧ (fam = "inet6" ↔ "inet6" ∈ opts) := by
  unfold familyOf at h
  by_cases h1 : "inet" ∈ opts <;> by_cases h2 : "inet6" ∈ opts <;> simp [h1, h2] at h
  all_goals
    subst h
    simp [h2]

theorem protoNumber_str (s : String) : protoNumber (.str s) = if s = "ipip" then .num 4 else .str s := by
  unfold protoNumber
  by_cases h : s = "ipip"
  · subst h
    rfl
  · simp [h]

/-! ### the rules of a term -/

/-- The terms that are rendered faithfully in a filter for the version, as far as the tool does not refuse others. For what
happens without the conditions beyond its own checks, see the refutations. -/
structure AdvFits (v : Ver) (t : Term) : Prop where
  keywords : initCheck advTables [(["windows_advfirewall"], [kterm t])] = .ok ()
  sane : sanityCheck t = .ok ()
  option : t.option = []
  untagged : Untagged t
  family : FamilyOk v t
  src : ∀ n ∈ t.sourceAddress, WF n
  dst : ∀ n ∈ t.destinationAddress, WF n
  protos : ∀ s ∈ t.protocol, s ∈ ["tcp", "udp", "icmp", "icmpv6", "vrrp", "ah", "hopopt", "ipip"]
  icmp : v = .v6 → "icmp" ∈ t.protocol → ∀ s ∈ t.protocol, s = "icmp"
  icmpv6 : v = .v4 → "icmpv6" ∈ t.protocol → ∀ s ∈ t.protocol, s = "icmpv6"
  ports : t.sourcePort ++ t.destinationPort ≠ [] → t.protocol ≠ []
  any : ∀ n ∈ t.sourceAddress ++ t.destinationAddress, n.plen = 0 → n.ver = v

theorem adv_tables_ok : ∀ e ∈ advTables.subTokens, e.1 ∈ advTables.tokens := by decide

theorem adv_rare : ∀ s ∈ rareWords, s ∉ advTables.tokens := by decide

theorem adv_verbatim {v : Ver} {t : Term} (f : AdvFits v t) (ha : Active "windows_advfirewall" (kterm t)) : t.verbatim = [] :=
  Cisco.listVal_falsy (unset (g := advTables) adv_tables_ok rfl ha f.keywords "verbatim" (by simp [attrsOf]) (by decide))

theorem adv_matches {v : Ver} {t : Term} (f : AdvFits v t) (ha : Active "windows_advfirewall" (kterm t)) {p : Packet}
    (hv : p.ver = v) (hs : t.sourceAddressExclude = []) (hd : t.destinationAddressExclude = []) : Matches t p ↔
      ((t.sourceAddress = [] ∨ Den t.sourceAddress p.ver p.src) ∧
        (t.destinationAddress = [] ∨ Den t.destinationAddress p.ver p.dst)) ∧
      OneOf t.protocol p.proto ∧ (PortMatch t.sourcePort p.sport ∧ PortMatch t.destinationPort p.dport) ∧
      OneOf t.icmpType p.icmpType := by
  have un := fun (s : String) {v : Val} => unset (g := advTables) adv_tables_ok rfl ha f.keywords s (v := v)
  have b := basic_of (g := advTables) adv_tables_ok rfl adv_rare ha f.keywords
  have h5 : t.protocolExcept = [] := Cisco.wordsVal_falsy (un "protocol_except" (by simp [attrsOf]) (by decide))
  have h9 : t.icmpCode = [] := Cisco.listVal_falsy (un "icmp_code" (by simp [attrsOf]) (by decide))
  rw [matches_basic b f.untagged (by rw [hv]; exact f.family)]
  unfold MatchProto AddrMatch
  rw [h5, h9, f.option, hs, hd]
  constructor
  · rintro ⟨⟨a, a'⟩, ⟨c, _⟩, d, ⟨e, _⟩, _⟩
    exact ⟨⟨a.1, a'.1⟩, c, d, e⟩
  · rintro ⟨⟨a, a'⟩, c, d, e⟩
    exact ⟨⟨⟨a, by simp [Den]⟩, a', by simp [Den]⟩, ⟨c, by simp⟩, d, ⟨e, .inl rfl⟩, by simp⟩

theorem adv_ip {l : List Net} (hw : ∀ n ∈ l, WF n) {v : Ver} {x : Nat} (hx : x < 2 ^ v.bits)
    (hany : ∀ n ∈ l, n.plen = 0 → n.ver = v) :
    (∃ o ∈ addresses l, Flat.IfSet (ipOf o) fun n => Flat.Covers n v x) ↔ l = [] ∨ Den l v x := by
  unfold addresses
  by_cases h : l = []
  · subst h
    exact iff_of_true ⟨none, by simp, Flat.ifSet_none⟩ (.inl rfl)
  · rw [if_neg (by simpa using h), or_iff_right h]
    have each : ∀ n ∈ l, (Flat.IfSet (ipOf (some n)) fun m => Flat.Covers m v x) ↔ Mem n v x := by
      intro n hn
      unfold ipOf
      dsimp only
      split
      next h0 =>
        refine iff_of_true Flat.ifSet_none ?_
        rw [← Flat.covers_iff (hw n hn)]
        have hv := hany n hn h0
        have ha : n.addr < 2 ^ v.bits := by
          have := (hw n hn).range
          rw [hv] at this
          have := Nat.two_pow_pos (v.bits - n.plen)
          omega
        refine ⟨hv.symm, ?_⟩
        dsimp only
        rw [h0, hv, Nat.sub_zero, Nat.div_eq_of_lt hx, Nat.div_eq_of_lt ha]
      · rw [Flat.ifSet_some, Flat.covers_iff (hw n hn)]
    constructor
    · rintro ⟨o, ho, h⟩
      obtain ⟨n, hn, rfl⟩ := List.mem_map.1 ho
      exact ⟨n, hn, (each n hn).1 h⟩
    · rintro ⟨n, hn, h⟩
      exact ⟨some n, List.mem_map_of_mem hn, (each n hn).2 h⟩

/-- The protocols the generator has a name or a number for. -/
theorem adv_word {s : String} (hs : s ∈ ["tcp", "udp", "icmp", "icmpv6", "vrrp", "ah", "hopopt", "ipip"]) {p : Packet}
    (hp : p.proto ∈ iana.map Prod.fst) :
    Spec.Windows.ProtoHits p (protoTok (protoNumber (.str s))) ↔ p.proto = s := by
  have word : ∀ {w u : String} {n : Nat}, (u, n) ∈ iana → (∀ e ∈ Spec.Windows.protoNames, e.1 = w ↔ e.2 = n) → w ≠ "any" →
      (w, n) ∈ Spec.Windows.protoNames → (Spec.Windows.ProtoHits p (.word w) ↔ p.proto = u) := by
    intro w u n h1 h2 h3 h4
    unfold Spec.Windows.ProtoHits
    dsimp only
    rw [or_iff_right h3]
    constructor
    · rintro ⟨k, hk, h⟩
      have e := (h2 _ hk).1 rfl
      dsimp only at e
      subst e
      exact Cisco.iana_inj _ h _ h1 rfl
    · intro e
      rw [e]
      exact ⟨n, h4, h1⟩
  simp only [List.mem_cons, List.not_mem_nil, or_false] at hs
  rcases hs with rfl | rfl | rfl | rfl | rfl | rfl | rfl | rfl
  · exact word (w := "tcp") (n := 6) (by decide) (by decide) (by decide) (by decide)
  · exact word (w := "udp") (n := 17) (by decide) (by decide) (by decide) (by decide)
  · exact word (w := "icmpv4") (n := 1) (by decide) (by decide) (by decide) (by decide)
  · exact word (w := "icmpv6") (n := 58) (by decide) (by decide) (by decide) (by decide)
  · exact Flat.numberIs_iff (s := "vrrp") (n := 112) (by decide) hp
  · exact Flat.numberIs_iff (s := "ah") (n := 51) (by decide) hp
  · exact Flat.numberIs_iff (s := "hopopt") (n := 0) (by decide) hp
  · exact Flat.numberIs_iff (s := "ipip") (n := 4) (by decide) hp

theorem adv_types {v : Ver} {fam : String} (hf : fam = if v = .v6 then "inet6" else "inet") {t : Term} {w : WTerm}
    (hw : w = ⟨t, t.protocol.map fun s => protoNumber (.str s)⟩) {ks : List ProtoTok} (h : protoToks fam w = .ok ks)
    (hne : t.icmpType ≠ []) :
    ((v = .v4 ∧ t.protocol = ["icmp"]) ∨ (v = .v6 ∧ t.protocol = ["icmpv6"])) ∧
    ∃ types : List (Option Nat), none ∉ types ∧
      ks = types.filterMap (fun o => o.map (.typed (if fam = "inet6" then "icmpv6" else "icmpv4"))) ∧
      ∀ p : Packet, (∃ ty ∈ types, ∀ k, ty = some k → (p.icmpType, k) ∈ Spec.icmpNumbers v) ↔ OneOf t.icmpType p.icmpType := by
  subst hw
  unfold protoToks at h
  rw [if_neg (by simpa using hne)] at h
  obtain ⟨types, h1, h⟩ := bind_ok h
  cases h
  have h2 : Iptables.icmpTypes t ((protocols ⟨t, t.protocol.map fun s => protoNumber (.str s)⟩).map Proto.text) v = .ok types := by
    unfold Iptables.icmpTypes
    rw [if_neg (by simpa using hne), ← hf]
    exact h1
  have k := fun p => Iptables.icmpTypes_spec h2 p
  obtain ⟨_, _, k2⟩ := k {}
  obtain ⟨k2, k3⟩ := k2 hne
  refine ⟨?_, types, k2, rfl, fun p => (k p).1⟩
  have text : ∀ {w : String}, (w = "icmp" ∨ w = "icmpv6") →
      (protocols ⟨t, t.protocol.map fun s => protoNumber (.str s)⟩).map Proto.text = [w] → t.protocol = [w] := by
    intro w hw e
    unfold protocols at e
    split at e
    · rcases hw with rfl | rfl <;> exact absurd e (by decide)
    · rw [List.map_map] at e
      obtain ⟨u, hu, e⟩ := List.map_eq_singleton_iff.1 e
      rw [hu]
      simp only [Function.comp_apply, protoNumber_str] at e
      split at e
      · rcases hw with rfl | rfl <;> exact absurd e (by decide)
      · exact congrArg (fun x => [x]) e
  rcases k3 with ⟨a, b⟩ | ⟨a, b⟩
  · exact .inl ⟨a, text (.inl rfl) b⟩
  · exact .inr ⟨a, text (.inr rfl) b⟩

theorem adv_proto {v : Ver} {fam : String} (hf : fam = if v = .v6 then "inet6" else "inet") {t : Term} {w : WTerm}
    (hw : w = ⟨t, t.protocol.map fun s => protoNumber (.str s)⟩) {ks : List ProtoTok} (h : protoToks fam w = .ok ks)
    (fit : AdvFits v t) {p : Packet} (hc : Coherent p) :
    (∃ k ∈ ks, Spec.Windows.ProtoHits p k) ↔ OneOf t.protocol p.proto ∧ OneOf t.icmpType p.icmpType := by
  by_cases hne : t.icmpType = []
  · subst hw
    unfold protoToks at h
    rw [if_pos (by simpa using hne)] at h
    cases h
    rw [hne, and_iff_left (.inl rfl)]
    unfold protocols
    by_cases hp : t.protocol = []
    · rw [if_pos (by simp [hp]), hp]
      refine iff_of_true ⟨protoTok (.str "any"), by simp, .inl ?_⟩ (.inl rfl)
      decide
    · rw [if_neg (by simpa using hp)]
      unfold OneOf
      rw [or_iff_right hp]
      constructor
      · rintro ⟨k, hk, h⟩
        rw [List.map_map] at hk
        obtain ⟨s, hs, rfl⟩ := List.mem_map.1 hk
        rw [(adv_word (fit.protos s hs) hc.proto).1 h]
        exact hs
      · intro hs
        refine ⟨_, ?_, (adv_word (fit.protos _ hs) hc.proto).2 rfl⟩
        rw [List.map_map]
        exact List.mem_map.2 ⟨_, hs, rfl⟩
  · obtain ⟨h1, types, h2, rfl, h3⟩ := adv_types hf hw h hne
    rw [← h3 p]
    have one : ∀ q, OneOf [q] p.proto ↔ p.proto = q := by simp [OneOf]
    rcases h1 with ⟨rfl, e⟩ | ⟨rfl, e⟩
    · rw [e, one]
      have hfam : (if fam = "inet6" then "icmpv6" else "icmpv4") = "icmpv4" := by rw [hf]; decide
      rw [hfam]
      constructor
      · rintro ⟨k, hk, h⟩
        obtain ⟨o, ho, e⟩ := List.mem_filterMap.1 hk
        cases o with
        | none => cases e
        | some n =>
          cases e
          rcases h with ⟨_, h, h'⟩ | ⟨h, _⟩
          · exact ⟨h, some n, ho, fun k e => by cases e; exact h'⟩
          · exact absurd h (by decide)
      · rintro ⟨e1, ty, hty, h⟩
        cases ty with
        | none => exact absurd hty h2
        | some n => exact ⟨_, List.mem_filterMap.2 ⟨some n, hty, rfl⟩, .inl ⟨rfl, e1, h n rfl⟩⟩
    · rw [e, one]
      have hfam : (if fam = "inet6" then "icmpv6" else "icmpv4") = "icmpv6" := by rw [hf]; decide
      rw [hfam]
      constructor
      · rintro ⟨k, hk, h⟩
        obtain ⟨o, ho, e⟩ := List.mem_filterMap.1 hk
        cases o with
        | none => cases e
        | some n =>
          cases e
          rcases h with ⟨h, _⟩ | ⟨_, h, h'⟩
          · exact absurd h (by decide)
          · exact ⟨h, some n, ho, fun k e => by cases e; exact h'⟩
      · rintro ⟨e1, ty, hty, h⟩
        cases ty with
        | none => exact absurd hty h2
        | some n => exact ⟨_, List.mem_filterMap.2 ⟨some n, hty, rfl⟩, .inr ⟨rfl, e1, h n rfl⟩⟩

theorem adv_ports {v : Ver} {fam : String} (hf : fam = if v = .v6 then "inet6" else "inet") {t : Term} {w : WTerm}
    (hw : w = ⟨t, t.protocol.map fun s => protoNumber (.str s)⟩) {ks : List ProtoTok} (h : protoToks fam w = .ok ks)
    (fit : AdvFits v t) (ha : Active "windows_advfirewall" (kterm t)) (hne : t.sourcePort ++ t.destinationPort ≠ []) :
    ∀ k ∈ ks, k = .word "tcp" ∨ k = .word "udp" := by
  have hp : t.sourcePort ≠ [] ∨ t.destinationPort ≠ [] := by
    by_cases h : t.sourcePort = []
    · right
      rintro e
      rw [h, e] at hne
      exact hne rfl
    · exact .inl h
  have two : ∀ s ∈ t.protocol, s = "tcp" ∨ s = "udp" := by
    intro s hs
    have h1 := sane_ports fit.sane (adv_verbatim fit ha) hp hs
    have h2 := fit.protos s hs
    have key : ∀ s ∈ ["tcp", "udp", "icmp", "icmpv6", "vrrp", "ah", "hopopt", "ipip"], s ∈ protosWithPorts →
        s = "tcp" ∨ s = "udp" := by decide
    exact key s h2 h1
  by_cases hi : t.icmpType = []
  · subst hw
    unfold protoToks at h
    rw [if_pos (by simpa using hi)] at h
    cases h
    unfold protocols
    rw [if_neg (by simpa using fit.ports hne)]
    intro k hk
    rw [List.map_map] at hk
    obtain ⟨s, hs, rfl⟩ := List.mem_map.1 hk
    rcases two s hs with rfl | rfl
    · exact .inl (by decide)
    · exact .inr (by decide)
  · obtain ⟨h1 | h1, _⟩ := adv_types hf hw h hi
    · rcases two "icmp" (by rw [h1.2]; simp) with e | e <;> exact absurd e (by decide)
    · rcases two "icmpv6" (by rw [h1.2]; simp) with e | e <;> exact absurd e (by decide)

theorem adv_action {platform fam : String} {w : WTerm} {o : Option String} (h : actionOf platform fam w = .ok o)
    (ha : Cisco.onPlatform platform w.term = true) :
    (o = none ∧ ((fam = "inet6" ∧ Proto.str "icmp" ∈ w.protos) ∨ (fam = "inet" ∧ Proto.str "icmpv6" ∈ w.protos) ∨
      ∃ as, w.term.action = "next" :: as)) ∨
    ∃ a, o = some a ∧ w.term.action = [a] ∧ w.term.sourceAddressExclude = [] ∧ w.term.destinationAddressExclude = [] := by
  unfold actionOf at h
  rw [if_neg (by simp [ha])] at h
  split at h
  next hx =>
    cases h
    simp only [Bool.or_eq_true, Bool.and_eq_true, decide_eq_true_eq, List.contains_iff_mem] at hx
    rcases hx with hx | hx
    · exact .inl ⟨rfl, .inl hx⟩
    · exact .inl ⟨rfl, .inr (.inl hx)⟩
  next hx =>
    cases hact : w.term.action with
    | nil =>
      rw [hact] at h
      cases h
    | cons a as =>
      rw [hact] at h
      dsimp only at h
      split at h
      next e =>
        subst e
        cases h
        exact .inl ⟨rfl, .inr (.inr ⟨as, rfl⟩)⟩
      · split at h
        · cases h
        next e1 =>
          split at h
          · cases h
          next e2 =>
            cases h
            simp only [Bool.not_eq_true', Bool.not_eq_false, List.isEmpty_iff, Bool.or_eq_true, not_or] at e1 e2
            exact .inr ⟨a, rfl, by rw [e1], e2.1, e2.2⟩

theorem adv_way {name : String} {t : Term} {act : String} {s d : Option Net} {k : ProtoTok} {p : Packet}
    (hn : name = "in" ∨ name = "out") :
    Spec.Windows.Hits (compose name t act s d k) name p ↔
      (Flat.IfSet (ipOf s) fun n => Flat.Covers n p.ver p.src) ∧ (Flat.IfSet (ipOf d) fun n => Flat.Covers n p.ver p.dst) ∧
      (PortMatch t.sourcePort p.sport ∧ PortMatch t.destinationPort p.dport) ∧
      (t.sourcePort ++ t.destinationPort ≠ [] → k = .word "tcp" ∨ k = .word "udp") ∧ Spec.Windows.ProtoHits p k := by
  have pm : ∀ {l : List PortRange} {x : Nat}, PortMatch l x ↔ (l ≠ [] → ∃ q ∈ l, q.1 ≤ x ∧ x ≤ q.2) := by
    intro l x
    unfold PortMatch
    constructor
    · rintro (rfl | h) hne
      · exact absurd rfl hne
      · exact h
    · intro h
      by_cases e : l = []
      · exact .inl e
      · exact .inr (h e)
  have comm : ∀ {l m : List PortRange}, l ++ m ≠ [] ↔ m ++ l ≠ [] := by
    intro l m
    simp only [ne_eq, List.append_eq_nil_iff, and_comm]
  rcases hn with rfl | rfl
  · unfold compose
    rw [if_pos (by decide)]
    constructor
    · rintro ⟨_, h1, h2, h3, h4, h5, h6⟩
      exact ⟨h2, h1, ⟨pm.2 h4, pm.2 h3⟩, fun h => h5 (comm.1 h), h6⟩
    · rintro ⟨h1, h2, ⟨h3, h4⟩, h5, h6⟩
      exact ⟨rfl, h2, h1, pm.1 h4, pm.1 h3, fun h => h5 (comm.1 h), h6⟩
  · unfold compose
    rw [if_neg (by decide)]
    constructor
    · rintro ⟨_, h1, h2, h3, h4, h5, h6⟩
      exact ⟨h1, h2, ⟨pm.2 h3, pm.2 h4⟩, h5, h6⟩
    · rintro ⟨h1, h2, ⟨h3, h4⟩, h5, h6⟩
      exact ⟨rfl, h1, h2, pm.1 h3, pm.1 h4, h5, h6⟩

/-- The rules of a term: one that matches and has the action if the term matches and has it. -/
theorem adv_hits {v : Ver} {name fam : String} (hf : fam = if v = .v6 then "inet6" else "inet") {t : Term} {w : WTerm}
    (hw : w = ⟨t, t.protocol.map fun s => protoNumber (.str s)⟩) (hn : name = "in" ∨ name = "out") {ls : List Rule}
    (h : advTerm name fam w = .ok ls) (fit : AdvFits v t) (ha : Active "windows_advfirewall" (kterm t))
    (hon : Cisco.onPlatform "windows_advfirewall" t = true) {p : Packet} (hc : Coherent p) (hv : p.ver = v) (a : String) :
    (∃ r ∈ ls, r.action = a ∧ Spec.Windows.Hits r name p) ↔
      Matches t p ∧ ∃ w, t.action = [w] ∧ (w, a) ∈ Spec.Windows.actionNames := by
  unfold advTerm at h
  obtain ⟨o, h1, h⟩ := bind_ok h
  have ht : w.term = t := by rw [hw]
  rcases adv_action h1 (by rw [ht]; exact hon) with ⟨rfl, hx⟩ | ⟨act, rfl, hact, hs, hd⟩
  · cases h
    refine iff_of_false (by simp) ?_
    rintro ⟨hm, u, hu, hmem⟩
    rw [ht, hw] at hx
    dsimp only at hx
    have mem : ∀ {s : String}, s ≠ "ipip" → Proto.str s ∈ t.protocol.map (fun s => protoNumber (.str s)) → s ∈ t.protocol := by
      intro s hs h
      obtain ⟨u, hu, e⟩ := List.mem_map.1 h
      rw [protoNumber_str] at e
      split at e
      · cases e
      · cases e
        exact hu
    have prot : ∀ s, s ∈ t.protocol → (∀ u ∈ t.protocol, u = s) → p.proto = s := by
      intro s hs h
      rcases hm.2.2.1.1 with e | e
      · rw [e] at hs
        cases hs
      · exact h _ e
    rcases hx with ⟨e, hx⟩ | ⟨e, hx⟩ | ⟨as, e⟩
    · have hv6 : v = .v6 := by
        cases v
        · rw [hf] at e
          exact absurd e (by decide)
        · rfl
      have hx := mem (by decide) hx
      exact hc.icmp6 (hv.trans hv6) (prot "icmp" hx (fit.icmp hv6 hx))
    · have hv4 : v = .v4 := by
        cases v
        · rfl
        · rw [hf] at e
          exact absurd e (by decide)
      have hx := mem (by decide) hx
      exact hc.icmp4 (hv.trans hv4) (prot "icmpv6" hx (fit.icmpv6 hv4 hx))
    · rw [e] at hu
      cases hu
      revert hmem
      simp [Spec.Windows.actionNames]
  · rw [ht] at hact hs hd
    dsimp only at h
    obtain ⟨ks, h2, h⟩ := bind_ok h
    split at h
    · cases h
    next a' hl =>
      cases h
      rw [ht]
      have hwa : act ∈ ["accept", "deny"] :=
        word_known (g := advTables) adv_tables_ok ha fit.keywords (el := "action") (l := t.action)
          (ok := ["accept", "deny"]) (by simp [attrsOf]) rfl (by decide) (by rw [hact]; simp)
      have names : a' = a ↔ ∃ w, t.action = [w] ∧ (w, a) ∈ Spec.Windows.actionNames := by
        rw [hact]
        simp only [List.mem_cons, List.not_mem_nil, or_false] at hwa
        rcases hwa with rfl | rfl <;>
        · simp only [advActions, List.lookup] at hl
          cases hl
          simp [Spec.Windows.actionNames, eq_comm]
      rw [adv_matches fit ha hv hs hd]
      have p1 := adv_ip (l := t.sourceAddress) fit.src (v := p.ver) (x := p.src) hc.src
        (fun n hn h => hv ▸ fit.any n (List.mem_append.2 (.inl hn)) h)
      have p2 := adv_ip (l := t.destinationAddress) fit.dst (v := p.ver) (x := p.dst) hc.dst
        (fun n hn h => hv ▸ fit.any n (List.mem_append.2 (.inr hn)) h)
      have p3 := adv_proto hf hw h2 fit hc
      have p4 := fun hne => adv_ports hf hw h2 fit ha hne
      rw [← p1, ← p2, ← names]
      constructor
      · rintro ⟨r, hr, ea, hh⟩
        obtain ⟨s, hs, hr⟩ := List.mem_flatMap.1 hr
        obtain ⟨d, hd, hr⟩ := List.mem_flatMap.1 hr
        obtain ⟨k, hk, rfl⟩ := List.mem_map.1 hr
        obtain ⟨q1, q2, q3, q4, q5⟩ := (adv_way hn).1 hh
        obtain ⟨o1, o2⟩ := p3.1 ⟨k, hk, q5⟩
        refine ⟨⟨⟨⟨s, hs, q1⟩, ⟨d, hd, q2⟩⟩, o1, q3, o2⟩, ?_⟩
        rw [← ea]
        unfold compose
        split <;> rfl
      · rintro ⟨⟨⟨⟨s, hs, q1⟩, ⟨d, hd, q2⟩⟩, o1, q3, o2⟩, rfl⟩
        obtain ⟨k, hk, q5⟩ := p3.2 ⟨o1, o2⟩
        refine ⟨compose name t a' s d k, ?_, ?_, (adv_way hn).2 ⟨q1, q2, q3, fun hne => p4 hne k hk, q5⟩⟩
        · exact List.mem_flatMap.2 ⟨s, hs, List.mem_flatMap.2 ⟨d, hd, List.mem_map_of_mem hk⟩⟩
        · unfold compose
          split <;> rfl

/-! ### the policy -/

theorem adv_rules {fs : List Windows.Filter} {out : List Rule} (h : advTranslate fs = .ok out) (r : Rule) :
    r ∈ out ↔ ∃ f ∈ fs, f.here = true ∧ ∃ name fam, f.options.head? = some name ∧
      familyOf ["inet", "inet6"] f.options.tail = .ok fam ∧ ∃ x ∈ f.terms, x.expired = false ∧ ¬ forReplies x.term ∧
      ∃ w ls, w = ⟨x.term, x.term.protocol.map fun s => protoNumber (.str s)⟩ ∧ advTerm name fam w = .ok ls ∧ r ∈ ls := by
  unfold advTranslate at h
  obtain ⟨ps, h1, h⟩ := bind_ok h
  obtain ⟨ls, h2, h⟩ := bind_ok h
  cases h
  obtain ⟨m1, m2⟩ := win_prepare_mem h1
  have one : ∀ {d : Option String} {f : Windows.Filter} {q : Prepared} {l : List Rule}, prepareFilter ["inet", "inet6"] d f = .ok q →
      advFilter q = .ok l → (r ∈ l ↔ ∃ name fam, f.options.head? = some name ∧
      familyOf ["inet", "inet6"] f.options.tail = .ok fam ∧ ∃ x ∈ f.terms, x.expired = false ∧ ¬ forReplies x.term ∧
      ∃ w ls, w = ⟨x.term, x.term.protocol.map fun s => protoNumber (.str s)⟩ ∧ advTerm name fam w = .ok ls ∧ r ∈ ls) := by
    intro d f q l hq hl
    obtain ⟨k1, k2, k3, _⟩ := prepareFilter_ok hq
    unfold advFilter at hl
    split at hl
    · cases hl
    · obtain ⟨ms, h3, hl⟩ := bind_ok hl
      cases hl
      have k4 := prepareTerms_mem k3
      have k5 := fun x => listM_mem h3 (b := x)
      rw [List.mem_flatMap]
      constructor
      · rintro ⟨m, hm, hr⟩
        obtain ⟨w, hw, h4⟩ := (k5 m).1 hm
        obtain ⟨x, hx, h5, h6, h7⟩ := (k4 w).1 hw
        obtain ⟨n, h8, h9⟩ := initTerm_ok h7
        refine ⟨n, q.family, h8, k2, x, hx, h5, h6, w, m, h9, ?_, hr⟩
        rw [k1, h8] at h4
        exact h4
      · rintro ⟨n, fam, h8, h9, x, hx, h5, h6, w, m, h7, h4, hr⟩
        rw [k2] at h9
        cases h9
        refine ⟨m, (k5 m).2 ⟨w, (k4 w).2 ⟨x, hx, h5, h6, ?_⟩, ?_⟩, hr⟩
        · obtain ⟨w', hw'⟩ := prepareTerms_each k3 x hx h5 h6
          obtain ⟨_, _, e⟩ := initTerm_ok hw'
          rw [hw', e, h7]
        · rw [k1, h8]
          exact h4
  rw [List.mem_flatMap]
  constructor
  · rintro ⟨l, hl, hr⟩
    obtain ⟨q, hq, hl⟩ := (listM_mem h2 (b := l)).1 hl
    obtain ⟨f, hf, hh, d, hq⟩ := m1 q hq
    exact ⟨f, hf, hh, (one hq hl).1 hr⟩
  · rintro ⟨f, hf, hh, hr⟩
    obtain ⟨d, q, hq, hq'⟩ := m2 f hf hh
    obtain ⟨l, hl⟩ := Cisco.listM_each h2 q hq
    exact ⟨l, (listM_mem h2 l).2 ⟨q, hq, hl⟩, (one hq' hl).2 hr⟩

/-- The rules of the terms of a direction: one that matches and has the action if a term wants it. -/
theorem adv_wants {fs : List Windows.Filter} {out : List Rule} (h : advTranslate fs = .ok out) {dir : String}
    (hd : dir = "in" ∨ dir = "out") {p : Packet} (hc : Coherent p)
    (hv : ∀ f ∈ fs, f.here = true → f.options.head? = some dir → Spec.Windows.versionOf f.options = p.ver)
    (hfit : ∀ r ∈ Spec.Windows.termsOf dir p.ver fs, r.expired = false → Active "windows_advfirewall" (kterm r.term) →
      AdvFits p.ver r.term ∨ (forReplies r.term ∧ p.hasOption "tcp-established" = false)) (a : String) :
    (∃ r ∈ out, r.action = a ∧ Spec.Windows.Hits r dir p) ↔
      ∃ r ∈ Spec.Windows.termsOf dir p.ver fs, Spec.Windows.Wants r p a := by
  have act : ∀ t, Cisco.onPlatform "windows_advfirewall" t = true ↔ Active "windows_advfirewall" (kterm t) :=
    fun t => Cisco.onPlatform_iff (c := ⟨"windows_advfirewall", false⟩)
  have famv : ∀ {f : Windows.Filter} {fam : String}, familyOf ["inet", "inet6"] f.options.tail = .ok fam →
      Spec.Windows.versionOf f.options = p.ver → fam = if p.ver = .v6 then "inet6" else "inet" := by
    intro f fam h1 h2
    obtain ⟨k1, k2⟩ := adv_family h1
    rw [← h2]
    unfold Spec.Windows.versionOf
    by_cases hx : "inet6" ∈ f.options.tail
    · simp [hx, k2.2 hx]
    · have : fam ≠ "inet6" := fun e => hx (k2.1 e)
      simp [hx]
      exact k1.resolve_right this
  have way : ∀ {name fam : String} {w : WTerm} {ls : List Rule} {r : Rule}, advTerm name fam w = .ok ls → r ∈ ls → r.dir = name := by
    intro name fam w ls r h hr
    unfold advTerm at h
    obtain ⟨o, _, h⟩ := bind_ok h
    split at h
    · cases h
      cases hr
    · obtain ⟨ks, _, h⟩ := bind_ok h
      split at h
      · cases h
      · cases h
        obtain ⟨s, _, hr⟩ := List.mem_flatMap.1 hr
        obtain ⟨d, _, hr⟩ := List.mem_flatMap.1 hr
        obtain ⟨k, _, rfl⟩ := List.mem_map.1 hr
        unfold compose
        split <;> rfl
  have mem : ∀ {r : RTerm}, r ∈ Spec.Windows.termsOf dir p.ver fs ↔ ∃ f ∈ fs, f.here = true ∧ f.options.head? = some dir ∧
      Spec.Windows.versionOf f.options = p.ver ∧ r ∈ f.terms := by
    intro r
    unfold Spec.Windows.termsOf
    simp only [List.mem_flatMap, List.mem_filter, Bool.and_eq_true, beq_iff_eq]
    constructor
    · rintro ⟨f, ⟨h1, ⟨h2, h3⟩, h4⟩, h5⟩
      exact ⟨f, h1, h2, h3, h4, h5⟩
    · rintro ⟨f, h1, h2, h3, h4, h5⟩
      exact ⟨f, ⟨h1, ⟨h2, h3⟩, h4⟩, h5⟩
  have live : ∀ {name fam : String} {w : WTerm} {ls : List Rule} {r : Rule}, advTerm name fam w = .ok ls → r ∈ ls →
      Cisco.onPlatform "windows_advfirewall" w.term = true := by
    intro name fam w ls r h hr
    cases hx : Cisco.onPlatform "windows_advfirewall" w.term with
    | true => rfl
    | false =>
      unfold advTerm at h
      obtain ⟨o, h1, h⟩ := bind_ok h
      unfold actionOf at h1
      rw [if_pos (by simp [hx])] at h1
      cases h1
      cases h
      cases hr
  constructor
  · rintro ⟨r, hr, ha, hh⟩
    obtain ⟨f, hf, h1, name, fam, h2, h3, x, hx, h4, h5, w, ls, hw, h6, h7⟩ := (adv_rules h r).1 hr
    have e : name = dir := by rw [← way h6 h7, hh.way]
    subst e
    have hv' := hv f hf h1 h2
    have hm := mem.2 ⟨f, hf, h1, h2, hv', hx⟩
    have hon : Cisco.onPlatform "windows_advfirewall" x.term = true := by
      have := live h6 h7
      rwa [hw] at this
    rcases hfit x hm h4 ((act _).1 hon) with fit | ⟨g, _⟩
    · have := (adv_hits (famv h3 hv') hw hd h6 fit ((act _).1 hon) hon hc rfl a).1 ⟨r, h7, ha, hh⟩
      exact ⟨x, hm, ⟨h4, (act _).1 hon⟩, this⟩
    · exact absurd g h5
  · rintro ⟨x, hm, ⟨h4, hact⟩, hw⟩
    obtain ⟨f, hf, h1, h2, hv', hx⟩ := mem.1 hm
    have hact' : Active "windows_advfirewall" (kterm x.term) := hact
    rcases hfit x hm h4 hact' with fit | ⟨g, hg⟩
    · have h5 : ¬ forReplies x.term := by
        unfold forReplies
        rw [fit.option]
        simp
      unfold advTranslate at h
      obtain ⟨ps, k1, k⟩ := bind_ok h
      obtain ⟨ls, k2, k⟩ := bind_ok k
      obtain ⟨d, q, hq, hq'⟩ := (win_prepare_mem k1).2 f hf h1
      obtain ⟨l, hl⟩ := Cisco.listM_each k2 q hq
      obtain ⟨q1, q2, q3, _⟩ := prepareFilter_ok hq'
      unfold advFilter at hl
      split at hl
      · cases hl
      · obtain ⟨ms, h3, hl⟩ := bind_ok hl
        obtain ⟨w, hw'⟩ := prepareTerms_each q3 x hx h4 h5
        obtain ⟨_, _, e⟩ := initTerm_ok hw'
        obtain ⟨m, hm'⟩ := Cisco.listM_each h3 w ((prepareTerms_mem q3 w).2 ⟨x, hx, h4, h5, hw'⟩)
        rw [q1, h2] at hm'
        obtain ⟨r, hr, ha, hh⟩ := (adv_hits (famv q2 hv') e hd hm' fit hact' ((act _).2 hact') hc rfl a).2 hw
        refine ⟨r, (adv_rules h r).2 ⟨f, hf, h1, dir, q.family, h2, q2, x, hx, h4, h5, w, m, e, hm', hr⟩, ha, hh⟩
    · exfalso
      have ho := hw.1.2.2.2.2.1.2.1
      rcases g with g | g
      · have := ho _ g
        rw [hc.est, hg] at this
        cases this
      · have := ho _ g
        rw [hg] at this
        cases this

/-- C118, where all filters of the direction are for the version of the packet, for terms that fit and, for packets that begin
a connection, terms for replies: the firewall blocks what a term denies, and allows what a term accepts and none denies. Not
proved, and refuted below: the same for filters of both versions and for other terms. -/
theorem C118_partial {fs : List Windows.Filter} {out : List Rule} (h : advTranslate fs = .ok out) {dir : String}
    (hd : dir = "in" ∨ dir = "out") {p : Packet} (hc : Coherent p)
    (hv : ∀ f ∈ fs, f.here = true → f.options.head? = some dir → Spec.Windows.versionOf f.options = p.ver)
    (hfit : ∀ r ∈ Spec.Windows.termsOf dir p.ver fs, r.expired = false → Active "windows_advfirewall" (kterm r.term) →
      AdvFits p.ver r.term ∨ (forReplies r.term ∧ p.hasOption "tcp-established" = false)) :
    (Spec.Windows.Blocks out dir p ↔ ∃ r ∈ Spec.Windows.termsOf dir p.ver fs, Spec.Windows.Wants r p "block") ∧
    (Spec.Windows.Allows out dir p ↔ (∃ r ∈ Spec.Windows.termsOf dir p.ver fs, Spec.Windows.Wants r p "allow") ∧
      ¬ ∃ r ∈ Spec.Windows.termsOf dir p.ver fs, Spec.Windows.Wants r p "block") := by
  have hb := adv_wants h hd hc hv hfit "block"
  have ha := adv_wants h hd hc hv hfit "allow"
  exact ⟨hb, and_congr ha (not_congr hb)⟩

/-- C119, as C118 and where no term denies what a term before it accepts: the firewall does what the first term that matches
says. Not proved, and refuted below: the same where a term denies the rest. -/
theorem C119_partial {fs : List Windows.Filter} {out : List Rule} (h : advTranslate fs = .ok out) {dir : String}
    (hd : dir = "in" ∨ dir = "out") {p : Packet} (hc : Coherent p)
    (hv : ∀ f ∈ fs, f.here = true → f.options.head? = some dir → Spec.Windows.versionOf f.options = p.ver)
    (hfit : ∀ r ∈ Spec.Windows.termsOf dir p.ver fs, r.expired = false → Active "windows_advfirewall" (kterm r.term) →
      AdvFits p.ver r.term ∨ (forReplies r.term ∧ p.hasOption "tcp-established" = false))
    (hord : (Spec.Windows.termsOf dir p.ver fs).Pairwise fun r s =>
      ¬ (Spec.Windows.Wants r p "allow" ∧ Spec.Windows.Wants s p "block")) :
    (Spec.Windows.Blocks out dir p ↔ Spec.Windows.PolicyDecides (Spec.Windows.termsOf dir p.ver fs) p "block") ∧
    (Spec.Windows.Allows out dir p ↔ Spec.Windows.PolicyDecides (Spec.Windows.termsOf dir p.ver fs) p "allow") := by
  obtain ⟨hb, ha⟩ := C118_partial h hd hc hv hfit
  rw [hb, ha]
  generalize Spec.Windows.termsOf dir p.ver fs = ts at hord
  unfold Spec.Windows.PolicyDecides
  have names : ∀ {r : RTerm} {a : String}, Spec.Windows.Wants r p a → a = "allow" ∨ a = "block" := by
    rintro r a ⟨_, _, w, _, h⟩
    simp only [Spec.Windows.actionNames, List.mem_cons, Prod.mk.injEq, List.not_mem_nil, or_false] at h
    rcases h with ⟨_, rfl⟩ | ⟨_, rfl⟩
    · exact .inl rfl
    · exact .inr rfl
  have uniq : ∀ {r : RTerm}, Spec.Windows.Wants r p "allow" → ¬ Spec.Windows.Wants r p "block" := by
    rintro r ⟨_, _, w, e, h⟩ ⟨_, _, w', e', h'⟩
    rw [e] at e'
    cases e'
    simp [Spec.Windows.actionNames] at h h'
    rw [h] at h'
    exact absurd h' (by decide)
  induction ts with
  | nil =>
    have no : ∀ a, ¬ First (fun r a => Spec.Windows.Wants r p a) [] a := fun a => Lemmas.first_nil
    simp [no]
  | cons r rs ih =>
    obtain ⟨h1, h2⟩ := List.pairwise_cons.1 hord
    obtain ⟨i1, i2⟩ := ih h2
    rw [Lemmas.first_cons, Lemmas.first_cons]
    have ex : ∀ a, (∃ x ∈ r :: rs, Spec.Windows.Wants x p a) ↔ Spec.Windows.Wants r p a ∨ ∃ x ∈ rs, Spec.Windows.Wants x p a := by
      simp
    rw [ex, ex]
    by_cases c1 : Spec.Windows.Wants r p "allow"
    · have c2 := uniq c1
      have c3 : ¬ ∃ x ∈ rs, Spec.Windows.Wants x p "block" := fun ⟨x, hx, h⟩ => h1 x hx ⟨c1, h⟩
      have c4 : ¬ ∀ w, ¬ Spec.Windows.Wants r p w := fun h => h _ c1
      simp only [c1, c2, c3, c4, true_or, false_and, or_false, not_false_eq_true, and_self]
    · by_cases c2 : Spec.Windows.Wants r p "block"
      · have c4 : ¬ ∀ w, ¬ Spec.Windows.Wants r p w := fun h => h _ c2
        simp only [c1, c2, c4, true_or, false_and, or_false, not_true_eq_false, and_false]
        simp
      · have c4 : ∀ w, ¬ Spec.Windows.Wants r p w := fun w h => by
          rcases names h with rfl | rfl
          · exact c1 h
          · exact c2 h
        simp only [c1, c2, false_or]
        rw [and_iff_right c4, and_iff_right c4]
        exact ⟨i1, i2⟩

end Verif.Props
