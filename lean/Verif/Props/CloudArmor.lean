import Verif.Lemmas.CloudArmor
import Verif.Props.Policy

/-!
Properties of the model of capirca/lib/cloudarmor.py: C72, C73, C74.
-/

namespace Verif.Props
open Verif Verif.Spec Verif.Spec.Armor Verif.CloudArmor Policy Aclgenerator Nacaddr

/-- The terms that are rendered faithfully in a filter of the family. Each condition beyond the tool's own checks is
needed, see the refutations. -/
structure AFits (af : String) (t : Term) : Prop where
  keywords : initCheck CloudArmor.tables [(["cloudarmor"], [kterm t])] = .ok ()
  active : Active "cloudarmor" (kterm t)
  action : ∃ a, t.action = [a]
  untagged : Untagged t
  family : t.restrictAddressFamily = none
  src : ∀ n ∈ t.sourceAddress, WF n
  some : t.sourceAddress = [] ∨ ∃ n ∈ t.sourceAddress, (af = "inet" → n.ver = .v4) ∧ (af = "inet6" → n.ver = .v6)

theorem atables_ok : ∀ e ∈ CloudArmor.tables.subTokens, e.1 ∈ CloudArmor.tables.tokens := by decide

theorem amatches {af : String} {t : Term} (f : AFits af t) {p : Packet} :
    Matches t p ↔ t.sourceAddress = [] ∨ Den t.sourceAddress p.ver p.src := by
  have un := fun (s : String) {v : Val} => unset (g := CloudArmor.tables) atables_ok rfl f.active f.keywords s (v := v)
  have b : Basic t := basic_of (g := CloudArmor.tables) atables_ok rfl (by decide) f.active f.keywords
  have h1 : t.sourceAddressExclude = [] :=
    Cisco.listVal_falsy (un "source_address_exclude" (by simp [attrsOf]) (by decide))
  have h2 : t.destinationAddress = [] :=
    Cisco.listVal_falsy (un "destination_address" (by simp [attrsOf]) (by decide))
  have h3 : t.destinationAddressExclude = [] :=
    Cisco.listVal_falsy (un "destination_address_exclude" (by simp [attrsOf]) (by decide))
  have h4 : t.protocol = [] :=
    Cisco.wordsVal_falsy (un "protocol" (by simp [attrsOf]) (by decide))
  have h5 : t.protocolExcept = [] :=
    Cisco.wordsVal_falsy (un "protocol_except" (by simp [attrsOf]) (by decide))
  have h6 : t.sourcePort = [] :=
    Cisco.listVal_falsy (un "source_port" (by simp [attrsOf]) (by decide))
  have h7 : t.destinationPort = [] :=
    Cisco.listVal_falsy (un "destination_port" (by simp [attrsOf]) (by decide))
  have h8 : t.icmpType = [] :=
    Cisco.wordsVal_falsy (un "icmp_type" (by simp [attrsOf]) (by decide))
  have h9 : t.icmpCode = [] :=
    Cisco.listVal_falsy (un "icmp_code" (by simp [attrsOf]) (by decide))
  have h10 : t.option = [] :=
    Cisco.wordsVal_falsy (un "option" (by simp [attrsOf]) (by decide))
  rw [matches_basic b f.untagged (.inl f.family)]
  unfold MatchProto
  rw [h1, h2, h3, h4, h5, h6, h7, h8, h9, h10]
  simp [AddrMatch, PortMatch, OneOf, Den]

theorem addresses_den {af : String} {t : Term} {l : List Net} (h : addresses af t = .ok l) {p : Packet}
    (hp : OfFamily af p) : Den l p.ver p.src ↔ Den t.sourceAddress p.ver p.src := by
  unfold addresses at h
  dsimp only at h
  have key : ∀ v, p.ver = v → (Den (t.sourceAddress.filter fun n => n.ver == v) p.ver p.src ↔
      Den t.sourceAddress p.ver p.src) := by
    rintro v rfl
    exact Cisco.den_filter _ _ _
  split at h
  next e => cases h; exact key _ (hp.1 e)
  · split at h
    next e => cases h; exact key _ (hp.2 e)
    · split at h
      · cases h
        rw [den_append]
        constructor
        · rintro (⟨n, h1, h2⟩ | ⟨n, h1, h2⟩)
          · exact ⟨n, (List.mem_filter.1 h1).1, h2⟩
          · exact ⟨n, (List.mem_filter.1 h1).1, h2⟩
        · rintro ⟨n, h1, h2⟩
          cases hv : n.ver with
          | v4 => exact .inl ⟨n, List.mem_filter.2 ⟨h1, by simp [hv]⟩, h2⟩
          | v6 => exact .inr ⟨n, List.mem_filter.2 ⟨h1, by simp [hv]⟩, h2⟩
      · cases h

theorem addresses_mem {af : String} {t : Term} {l : List Net} (h : addresses af t = .ok l) {n : Net} :
    n ∈ l ↔ n ∈ t.sourceAddress ∧ (af = "inet" → n.ver = .v4) ∧ (af = "inet6" → n.ver = .v6) := by
  unfold addresses at h
  dsimp only at h
  split at h
  next e => cases h; subst e; simp
  · split at h
    next e => cases h; subst e; simp
    · split at h
      next e => cases h; subst e; cases hv : n.ver <;> simp [hv]
      · cases h

theorem convert_hits {af : String} {verbose : Bool} {prio : Nat} {t : CTerm} (f : AFits af t.term) {rs : List Rule}
    (h : convert af verbose prio t = .ok rs) {p : Packet} (hp : OfFamily af p) (a : String) :
    (∃ r ∈ rs, Hits r p ∧ r.action = a) ↔ Meant t.term ∧ Matches t.term p ∧ Acts t.term a := by
  unfold convert at h
  obtain ⟨_, _, h⟩ := bind_ok h
  obtain ⟨act, h1, h⟩ := bind_ok h
  obtain ⟨l, h2, h⟩ := bind_ok h
  cases h
  have hw : ∀ n ∈ l, WF n := fun n hn => f.src n ((addresses_mem h2).1 hn).1
  have hh := rulesFor_hits (desc := description verbose t.comment) (action := act) (prio := prio) hw (p := p)
  have hact := rulesFor_action (desc := description verbose t.comment) (action := act) (prio := prio) (l := l)
  have hnil : l = [] ↔ t.term.sourceAddress = [] := by
    constructor
    · rintro rfl
      rcases f.some with h | ⟨n, hn, h⟩
      · exact h
      · have := (addresses_mem h2 (n := n)).2 ⟨hn, h⟩
        cases this
    · intro he
      refine List.eq_nil_iff_forall_not_mem.2 fun n hn => ?_
      have := ((addresses_mem h2).1 hn).1
      rw [he] at this
      cases this
  have hm : Matches t.term p ↔ l = [] ∨ Den l p.ver p.src := by
    rw [amatches f, hnil, addresses_den h2 hp]
  have ha : Acts t.term a ↔ act = a := by
    obtain ⟨b, hb⟩ := f.action
    unfold actionOf at h1
    rw [hb] at h1
    dsimp only at h1
    unfold Acts
    rw [hb]
    by_cases e1 : b = "accept"
    · subst e1
      cases h1
      simp [eq_comm]
    · by_cases e2 : b = "deny"
      · subst e2
        cases h1
        simp [eq_comm]
      · have : actionMap.lookup b = none := by
          simp [actionMap, List.lookup, beq_eq_false_iff_ne.2 e1, beq_eq_false_iff_ne.2 e2]
        rw [this] at h1
        cases h1
  rw [hm, ← hh, ha]
  constructor
  · rintro ⟨r, hr, h, rfl⟩
    exact ⟨f.active, ⟨r, hr, h⟩, (hact r hr).symm⟩
  · rintro ⟨_, ⟨r, hr, h⟩, rfl⟩
    exact ⟨r, hr, h, hact r hr⟩

theorem acts_unique {t : Term} {a b : String} (h1 : Acts t a) (h2 : Acts t b) : a = b := by
  unfold Acts at h1 h2
  rcases h1 with ⟨e, rfl⟩ | ⟨e, rfl⟩ <;> rcases h2 with ⟨e', rfl⟩ | ⟨e', rfl⟩ <;> first | rfl | (rw [e] at e'; simp at e')

theorem range_pairwise {rs : List Rule} {k : Nat} (h : rs.map Rule.priority = List.range' k rs.length) :
    rs.Pairwise fun a b => a.priority < b.priority := by
  have : (rs.map Rule.priority).Pairwise (· < ·) := by
    rw [h]
    exact List.pairwise_lt_range'
  exact List.pairwise_map.1 this

theorem filterType_family {options : List String} {af af' : String} (h : filterType (options.erase "noverbose") = .ok af')
    (hf : Armor.Family options af) : af' = af := by
  have key : ∀ l : List String, ((l.erase "noverbose").filter fun o => o != "noverbose") = l.filter fun o => o != "noverbose" := by
    intro l
    induction l with
    | nil => rfl
    | cons a as ih =>
      rw [List.erase_cons]
      split
      next e =>
        have : a = "noverbose" := by simpa using e
        subst this
        rfl
      · rw [List.filter_cons, List.filter_cons, ih]
  unfold Armor.Family at hf
  rw [← key] at hf
  cases hl : options.erase "noverbose" with
  | nil =>
    rw [hl] at h hf
    cases h
    exact hf
  | cons a as =>
    rw [hl] at h hf
    unfold filterType at h
    dsimp only at h
    by_cases hm : ["inet", "inet6", "mixed"].contains a = true
    · rw [if_pos hm] at h
      cases h
      rw [List.filter_cons_of_pos] at hf
      · exact hf
      · simp only [List.contains_iff_mem, List.mem_cons, List.not_mem_nil, or_false] at hm
        rcases hm with rfl | rfl | rfl <;> decide
    · rw [if_neg hm] at h
      cases h

/-- **C72** (partial): the policy of a filter decides about the packets of the filter's family like its terms, if they are
as in `AFits`. Missing: other terms, see the refutations. -/
theorem C72_partial {f : CloudArmor.Filter} {af : String} (haf : Armor.Family f.options af)
    (ht : ∀ t ∈ f.terms, AFits af t.term) {rs : List Rule} (h : translate [f] = .ok rs) {p : Packet}
    (hp : OfFamily af p) (action : String) :
    Decides rs p action ↔ PolicyDecides (f.terms.map CTerm.term) p action := by
  unfold translate filtersLoop at h
  obtain ⟨af', h1, h⟩ := bind_ok h
  have e := filterType_family h1 haf
  subst e
  obtain ⟨rs', h1, h⟩ := bind_ok h
  cases h
  obtain ⟨bs, rfl, h3, h4, h5, _⟩ := termsLoop_blocks h1
  rw [List.nil_append]
  unfold Decides PolicyDecides
  rw [Lemmas.best_first (fun a b h1 h2 => by omega) (range_pairwise h5)]
  rw [Lemmas.first_blocks (want := fun (t : CTerm) a => Meant t.term ∧ Matches t.term p ∧ Acts t.term a)
    (fun t v w h1 h2 => acts_unique h1.2.2 h2.2.2) ?_, h3]
  · exact (Lemmas.first_map (f := CTerm.term) (want' := fun t a => Meant t ∧ Matches t p ∧ Acts t a)
      (want := fun t a => Meant t.term ∧ Matches t.term p ∧ Acts t.term a) fun t _ w => Iff.rfl).symm
  · intro b hb w
    obtain ⟨prio, h6⟩ := h4 b hb
    refine convert_hits (ht b.1 ?_) h6 hp w
    rw [← h3]
    exact List.mem_map.2 ⟨b, hb, rfl⟩

/-! ### C73, C74 -/

theorem toString_short : ∀ n ≤ 200, (toString n).toList.length ≤ 3 := by decide +kernel

theorem suffix_short {i n : Nat} (hi : i ≤ 200) (hn : n ≤ 200) : (suffix i n).length ≤ 64 := by
  have h1 := toString_short i hi
  have h2 := toString_short n hn
  have e : suffix i n = " [".toList ++ ((toString i).toList ++ ("/".toList ++ ((toString n).toList ++ "]".toList))) := by
    unfold suffix
    simp only [String.toList_append, List.append_assoc]
    rfl
  rw [e]
  simp only [List.length_append]
  have a : " [".toList.length = 2 := by decide
  have b : "/".toList.length = 1 := by decide
  have c : "]".toList.length = 1 := by decide
  omega

theorem description_short {v : Bool} {c : List Str} {d : Str} (h : description v c = some d) : d.length ≤ 64 := by
  unfold description at h
  split at h
  · cases h
    split
    · rw [List.length_take]; omega
    · omega
  · cases h

theorem rulesFor_limits {v : Bool} {c : List Str} {action : String} {prio : Nat} {l : List Net}
    (hn : (rulesFor (description v c) action prio l).length ≤ 200) :
    ∀ r ∈ rulesFor (description v c) action prio l, 1 ≤ r.ranges.length ∧ r.ranges.length ≤ 5 ∧
      ∀ d, r.description = some d → d.length ≤ 64 := by
  unfold rulesFor at hn ⊢
  intro r hr
  split at hr
  · rw [List.mem_singleton.1 hr]
    exact ⟨by simp, by simp, fun d h => description_short h⟩
  next he =>
    rw [if_neg he, chunkRules_length] at hn
    obtain ⟨j, ch, _, h2, h3, rfl⟩ := chunkRules_mem hr
    obtain ⟨h4, h5⟩ := chunks_mem (by decide) h3
    refine ⟨?_, ?_, ?_⟩
    · show 1 ≤ (ch.map _).length
      rw [List.length_map]
      exact List.length_pos_iff.2 h4
    · show (ch.map _).length ≤ 5
      rw [List.length_map]
      exact h5
    · intro d hd
      unfold chunkRule at hd
      dsimp only at hd
      split at hd
      · cases hd
        have := suffix_short (i := j + 1) (n := (chunks 5 l).length) (by omega) hn
        rw [List.length_append]
        unfold cutFor
        rw [if_pos this, List.length_take]
        omega
      · exact description_short hd

/-- What C73 says about a list of rules. -/
def Within (rs : List Rule) : Prop :=
  rs.length ≤ 200 ∧ ∀ r ∈ rs, 1 ≤ r.ranges.length ∧ r.ranges.length ≤ 5 ∧ ∀ d, r.description = some d → d.length ≤ 64

theorem termsLoop_within {af : String} {verbose : Bool} {ts : List CTerm} {acc : List Rule} {counter : Nat} {rs : List Rule}
    (h : termsLoop af verbose acc counter ts = .ok rs) (ha : Within acc) : Within rs := by
  obtain ⟨bs, rfl, h3, h4, _, h6⟩ := termsLoop_blocks h
  have hlen : (acc ++ bs.flatMap Prod.snd).length ≤ 200 := by
    rcases h6 with rfl | h6
    · rw [List.map_eq_nil_iff] at h3
      subst h3
      simpa using ha.1
    · exact h6
  refine ⟨hlen, fun r hr => ?_⟩
  rcases List.mem_append.1 hr with hr | hr
  · exact ha.2 r hr
  · obtain ⟨b, hb, hr⟩ := List.mem_flatMap.1 hr
    obtain ⟨prio, h7⟩ := h4 b hb
    unfold convert at h7
    obtain ⟨_, _, h7⟩ := bind_ok h7
    obtain ⟨_, _, h7⟩ := bind_ok h7
    obtain ⟨_, _, h7⟩ := bind_ok h7
    have e := Except.ok.inj h7
    rw [← e] at hr
    refine rulesFor_limits ?_ r hr
    rw [e]
    rw [List.length_append] at hlen
    obtain ⟨s, t, rfl⟩ := List.append_of_mem hb
    rw [List.flatMap_append, List.flatMap_cons, List.length_append, List.length_append] at hlen
    omega

theorem filtersLoop_within : ∀ {fs : List CloudArmor.Filter} {acc rs : List Rule}, filtersLoop acc fs = .ok rs → Within acc →
    Within rs
  | [], acc, rs, h, ha => by cases h; exact ha
  | f :: fs, acc, rs, h, ha => by
    rw [filtersLoop] at h
    obtain ⟨_, _, h⟩ := bind_ok h
    obtain ⟨_, h2, h⟩ := bind_ok h
    exact filtersLoop_within h (termsLoop_within h2 ha)

/-- **C73**: whatever the filters and terms, a generated policy has at most 200 rules, each with one to five source ranges
and a description of at most 64 characters. -/
theorem C73_limits {fs : List CloudArmor.Filter} {rs : List Rule} (h : translate fs = .ok rs) :
    rs.length ≤ 200 ∧
    ∀ r ∈ rs, 1 ≤ r.ranges.length ∧ r.ranges.length ≤ 5 ∧ ∀ d, r.description = some d → d.length ≤ 64 :=
  filtersLoop_within h ⟨by simp, by simp⟩

/-- **C74** (partial): the rules of a policy with one filter are numbered from 1 without gaps, in the order of the rules.
Missing: several filters, see the refutation. -/
theorem C74_partial {f : CloudArmor.Filter} {rs : List Rule} (h : translate [f] = .ok rs) :
    rs.map Rule.priority = List.range' 1 rs.length := by
  unfold translate filtersLoop at h
  obtain ⟨_, _, h⟩ := bind_ok h
  obtain ⟨_, h1, h⟩ := bind_ok h
  cases h
  obtain ⟨bs, rfl, _, _, h5, _⟩ := termsLoop_blocks h1
  exact h5

/-! ### concrete cases and refutations -/

instance armorRangeDec (p : Packet) (x : Range) : Decidable (InRange p x) := by
  cases x <;> unfold InRange <;> infer_instance

instance armorHitsDec (r : Rule) (p : Packet) : Decidable (Hits r p) := by unfold Hits; infer_instance

instance armorFamilyDec (af : String) (p : Packet) : Decidable (OfFamily af p) := inferInstanceAs (Decidable (_ ∧ _))

instance armorMeantDec (t : Term) : Decidable (Meant t) := inferInstanceAs (Decidable (_ ∧ _))

/-- The term passes the checks of the tool. -/
def AAccepted (t : Term) : Prop :=
  initCheck CloudArmor.tables [(["cloudarmor"], [kterm t])] = .ok () ∧ sanityCheck t = .ok ()

instance armorAcceptedDec (t : Term) : Decidable (AAccepted t) := inferInstanceAs (Decidable (_ ∧ _))

/-- Seven addresses of two families. -/
def armorTerm : Term :=
  { name := "block".toList, action := ["deny"], sourceAddress := [ip4 10 0 0 0 8, ip4 11 0 0 0 8, ip4 12 0 0 0 8,
      ip4 13 0 0 0 8, ip4 14 0 0 0 8, ip4 15 0 0 0 8, { ver := .v6, addr := 0x20010db8000000000000000000000000, plen := 32 }] }

/-- A filter that denies some sources and allows the rest. -/
def armorFilter : CloudArmor.Filter where
  options := ["mixed"]
  terms := [{ term := armorTerm, comment := ["blocked".toList, "sources".toList] },
    { term := { name := "rest".toList, action := ["accept"] } }]

theorem armorFits : ∀ t ∈ armorFilter.terms, AFits "mixed" t.term := by
  intro t ht
  simp only [armorFilter, List.mem_cons, List.not_mem_nil, or_false] at ht
  rcases ht with rfl | rfl
  · exact {
      keywords := by decide +kernel, active := by decide, action := ⟨"deny", rfl⟩
      untagged := by constructor <;> decide
      family := rfl
      src := by
        intro n hn
        simp only [armorTerm, List.mem_cons, List.not_mem_nil, or_false] at hn
        rcases hn with rfl | rfl | rfl | rfl | rfl | rfl | rfl <;> constructor <;> decide
      some := .inr ⟨_, List.mem_cons_self, by decide⟩ }
  · exact {
      keywords := by decide +kernel, active := by decide, action := ⟨"accept", rfl⟩
      untagged := by constructor <;> decide
      family := rfl
      src := by decide
      some := .inl rfl }

example : ∃ rs, translate [armorFilter] = .ok rs ∧ rs.length = 3 ∧ rs.map Rule.priority = [1, 2, 3] ∧
    ∀ p, OfFamily "mixed" p → ∀ a, Decides rs p a ↔ PolicyDecides (armorFilter.terms.map CTerm.term) p a := by
  cases h : translate [armorFilter] with
  | error e =>
    have : (match translate [armorFilter] with | .ok _ => true | .error _ => false) = true := by decide +kernel
    rw [h] at this
    cases this
  | ok rs =>
    have : (match translate [armorFilter] with | .ok rs => rs.map Rule.priority | .error _ => []) = [1, 2, 3] := by
      decide +kernel
    rw [h] at this
    refine ⟨rs, rfl, ?_, this, fun p hp a => C72_partial rfl armorFits h hp a⟩
    have := congrArg List.length this
    rwa [List.length_map] at this

/-- Whether the rules of a filter with the terms decide the action; for concrete cases. -/
def armorFirst (options : List String) (ts : List Term) (p : Packet) : Option String :=
  match translate [{ options := options, terms := ts.map fun t => { term := t } }] with
  | .ok rs => ((rs.filter fun r => decide (Hits r p)).head?).map Rule.action
  | .error _ => none

theorem armorFirst_sound {options : List String} {ts : List Term} {p : Packet} {a : String}
    (h : armorFirst options ts p = some a) :
    ∃ rs, translate [{ options := options, terms := ts.map fun t => { term := t } }] = .ok rs ∧ Decides rs p a := by
  unfold armorFirst at h
  split at h
  next rs e =>
    refine ⟨rs, e, ?_⟩
    have hs := range_pairwise (C74_partial e)
    unfold Decides
    rw [Lemmas.best_first (fun a b h1 h2 => by omega) hs]
    obtain ⟨r, h1, rfl⟩ := Option.map_eq_some_iff.1 h
    clear h hs e
    induction rs with
    | nil => cases h1
    | cons x xs ih =>
      rw [Lemmas.first_cons]
      by_cases hx : Hits x p
      · rw [List.filter_cons_of_pos (by simpa using hx)] at h1
        cases h1
        exact .inl ⟨hx, rfl⟩
      · rw [List.filter_cons_of_neg (by simpa using hx)] at h1
        exact .inr ⟨fun w hw => hx hw.1, ih h1⟩
  · cases h

/-- C72 is false for a term none of whose addresses is of the family: it matches every source. -/
theorem C72_refuted_family : ∃ t p rs, AAccepted t ∧ Meant t ∧ OfFamily "inet" p ∧
    translate [{ options := ["inet"], terms := [{ term := t }] }] = .ok rs ∧ Decides rs p "allow" ∧ ¬ Matches t p := by
  have ⟨rs, h1, h2⟩ := armorFirst_sound (options := ["inet"])
    (ts := [{ name := "t".toList, action := ["accept"], sourceAddress := [{ ver := .v6, addr := 0x20010db8000000000000000000000000, plen := 32 }] }])
    (p := {}) (a := "allow") (by decide +kernel)
  exact ⟨_, _, rs, by decide +kernel, by decide +kernel, by decide, h1, h2, by decide +kernel⟩

/-- C72 is false for terms that are meant for other platforms: they are rendered, and without the check of keywords, so
that their protocol has no effect either. -/
theorem C72_refuted_platform : ∃ t p rs, AAccepted t ∧ ¬ Meant t ∧ OfFamily "inet" p ∧
    translate [{ options := ["inet"], terms := [{ term := t }] }] = .ok rs ∧ Decides rs p "allow" ∧ ¬ Matches t p := by
  have ⟨rs, h1, h2⟩ := armorFirst_sound (options := ["inet"])
    (ts := [{ name := "t".toList, action := ["accept"], platform := ["cisco"], protocol := ["icmp"],
              destinationAddress := [ip4 10 0 0 0 8] }])
    (p := { proto := "tcp" }) (a := "allow") (by decide +kernel)
  exact ⟨_, _, rs, by decide +kernel, by decide +kernel, by decide, h1, h2, by decide +kernel⟩

/-- C72 is false for terms that are restricted to a family: the restriction has no effect. -/
theorem C72_refuted_restrict : ∃ t p rs, AAccepted t ∧ Meant t ∧ OfFamily "mixed" p ∧
    translate [{ options := ["mixed"], terms := [{ term := t }] }] = .ok rs ∧ Decides rs p "allow" ∧ ¬ Matches t p := by
  have ⟨rs, h1, h2⟩ := armorFirst_sound (options := ["mixed"])
    (ts := [{ name := "t".toList, action := ["accept"], restrictAddressFamily := some "inet6" }])
    (p := {}) (a := "allow") (by decide +kernel)
  exact ⟨_, _, rs, by decide +kernel, by decide +kernel, by decide, h1, h2, by decide +kernel⟩

/-- C72 is false for terms with a tag: it has no effect. -/
theorem C72_refuted_tag : ∃ t p rs, AAccepted t ∧ Meant t ∧ OfFamily "inet" p ∧
    translate [{ options := ["inet"], terms := [{ term := t }] }] = .ok rs ∧ Decides rs p "allow" ∧ ¬ Matches t p := by
  have ⟨rs, h1, h2⟩ := armorFirst_sound (options := ["inet"])
    (ts := [{ name := "t".toList, action := ["accept"], sourceTag := ["web"] }])
    (p := {}) (a := "allow") (by decide +kernel)
  exact ⟨_, _, rs, by decide +kernel, by decide +kernel, by decide, h1, h2, by decide +kernel⟩

/-- C74 is false for several filters: each starts at priority 1, so that two rules of the policy have the same
priority. -/
theorem C74_refuted_filters : ∃ fs rs, (∀ f ∈ fs, ∀ t ∈ f.terms, AAccepted t.term) ∧ translate fs = .ok rs ∧
    ∃ a ∈ rs, ∃ b ∈ rs, a ≠ b ∧ a.priority = b.priority :=
  ⟨[{ terms := [{ term := { name := "a".toList, action := ["accept"] } }] },
    { terms := [{ term := { name := "b".toList, action := ["deny"] } }] }],
   [⟨none, "allow", 1, [.star]⟩, ⟨none, "deny(404)", 1, [.star]⟩], by decide +kernel, by decide +kernel,
   by decide⟩

end Verif.Props
