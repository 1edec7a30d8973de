import Verif.Props.NsxOut

/-!
C156: which rules the generators for NSX make of the terms, and what these carry besides their matches.
-/

namespace Verif.Props
open Verif Verif.Spec Verif.Nsx Policy Aclgenerator Nacaddr

theorem nsx_name {s out : Str} (h : fixName s = .ok out) : out = s := by
  unfold fixName fixTermLength truncateName at h
  rw [if_neg (by decide)] at h
  simp only [Bool.false_eq_true, if_false] at h
  repeat' split at h
  all_goals first
    | (cases h; rfl)
    | cases h
    | contradiction

theorem nsx_ports {c : HighPorts} {t u : Term} {af : String} {st : Bool} (h : fixHighPorts c t af st = .ok u) :
    ∃ l, u = { t with destinationPort := l } := by
  unfold fixHighPorts at h
  split at h
  · cases h
  · split at h
    · cases h
    · unfold fixEstablished at h
      split at h
      · split at h
        · cases h
          exact ⟨_, rfl⟩
        · split at h
          · cases h
            exact ⟨t.destinationPort, rfl⟩
          · cases h
      · cases h
        exact ⟨t.destinationPort, rfl⟩

/-- What a generator has to make of a prepared term. -/
structure NsxRuleOk (actions : List (String × String)) (rule : PTerm → Except Err (Option Rule)) : Prop where
  some_ : ∀ q r, rule q = .ok (some r) → r.name = q.item.term.name ∧
    r.action = (actions.lookup (q.item.term.action.head?.getD "")).getD "None" ∧
    (r.logged = true ↔ q.item.term.logging ≠ []) ∧
    ∀ s ∈ r.services, ∀ k, s.icmp = some k → ∃ w ∈ q.item.term.icmpType, ∃ v, (w, k) ∈ Spec.icmpNumbers v
  none_ : ∀ q, rule q = .ok none → q.item.term.sourceAddress ≠ [] ∧ q.item.term.destinationAddress ≠ []

theorem nsx_early {platform : String} {err : Err} {v : Ver} {t : Term} (h : early platform err v t = .ok true) :
    ¬ (t.platform = [] ∨ platform ∈ t.platform) ∨ platform ∈ t.platformExclude ∨ t.option ≠ [] ∨ "icmp" ∈ t.protocol ∨
      "icmpv6" ∈ t.protocol := by
  unfold early at h
  split at h
  next hp =>
    unfold Cisco.onPlatform at hp
    by_cases h1 : t.platform = [] ∨ platform ∈ t.platform
    · by_cases h2 : platform ∈ t.platformExclude
      · exact .inr (.inl h2)
      · exfalso
        rcases h1 with h1 | h1 <;> simp [h1, h2] at hp
    · exact .inl h1
  · split at h
    next hi =>
      simp only [Bool.or_eq_true, Bool.and_eq_true, List.contains_iff_mem] at hi
      rcases hi with hi | hi
      · exact .inr (.inr (.inr (.inl hi.2)))
      · exact .inr (.inr (.inr (.inr hi.2)))
    · split at h
      · cases h
      · split at h
        · cases h
        next ho => exact .inr (.inr (.inl (by rw [ho]; simp)))

theorem nsx_one {platform type : String} {err : Err} {actions : List (String × String)}
    {rule render : PTerm → Except Err (Option Rule)} (ok : NsxRuleOk actions rule)
    (hr : ∀ q, render q = (do let skip ← early platform err q.family q.item.term; if skip then .ok none else rule q))
    (hact : ∀ w a, actions.lookup w = some a → (w, a) ∈ actions) (hno : ∀ w, actions.lookup w = none → w ∉ actions.map Prod.fst)
    {n : NTerm} {o : Option PTerm} (ho : Nsx.prepare actions type n = .ok o) (hq : ∀ p, o = some p → ∃ r, render p = .ok r) :
    (nsxOut (Nsx.prepare actions type) render n = [] ∧ Spec.Nsx.Spared platform actions n) ∨
      ∃ r, nsxOut (Nsx.prepare actions type) render n = [r] ∧ Spec.Nsx.Carries actions n r := by
  have hp := ho
  unfold Nsx.prepare at ho
  unfold nsxOut
  rw [hp]
  split at ho
  next he =>
    cases ho
    exact .inl ⟨rfl, .inl he⟩
  next he =>
    split at ho
    · cases ho
    next w ws hw =>
      split at ho
      next hl =>
        cases ho
        exact .inl ⟨rfl, .inr (.inr (.inr (.inr (.inl ⟨w, by rw [hw]; rfl, hno w hl⟩))))⟩
      next a hl =>
        obtain ⟨nm, hnm, ho⟩ := bind_ok ho
        obtain ⟨t, ht, ho⟩ := bind_ok ho
        cases ho
        cases nsx_name hnm
        obtain ⟨l, rfl⟩ := nsx_ports ht
        obtain ⟨r, hrr⟩ := hq _ rfl
        dsimp only
        rw [hrr]
        rw [hr] at hrr
        obtain ⟨skip, hs, hrr⟩ := bind_ok hrr
        split at hrr
        next hsk =>
          cases hrr
          rw [hsk] at hs
          refine .inl ⟨rfl, .inr ?_⟩
          rcases nsx_early hs with h | h | h | h | h
          · exact .inl h
          · exact .inr (.inl h)
          · exact .inr (.inr (.inl h))
          · exact .inr (.inr (.inr (.inr (.inl h))))
          · exact .inr (.inr (.inr (.inr (.inr (.inl h)))))
        · cases r with
          | none => exact .inl ⟨rfl, .inr (.inr (.inr (.inr (.inr (.inr (.inr (ok.none_ _ hrr)))))))⟩
          | some r =>
            obtain ⟨k1, k2, k3, k4⟩ := ok.some_ _ _ hrr
            refine .inr ⟨r, rfl, by simpa using he, k1, ⟨w, by rw [hw]; rfl, ?_⟩, k3, k4⟩
            have : r.action = a := by
              rw [k2]
              dsimp only
              rw [hw]
              dsimp only [List.head?_cons, Option.getD_some]
              rw [hl]
              rfl
            rw [this]
            exact hact _ _ hl

theorem nsx_listed {platform : String} {names : List (String × String)} {out : NTerm → List Rule} : ∀ {ns : List NTerm},
    (∀ n ∈ ns, (out n = [] ∧ Spec.Nsx.Spared platform names n) ∨ ∃ r, out n = [r] ∧ Spec.Nsx.Carries names n r) →
    Spec.Nsx.Listed platform names ns (ns.flatMap out)
  | [], _ => .nil
  | n :: ns, h => by
    have ih := nsx_listed fun m hm => h m (List.mem_cons_of_mem _ hm)
    rw [List.flatMap_cons]
    rcases h n (List.mem_cons_self ..) with ⟨e, hs⟩ | ⟨r, e, hc⟩
    · rw [e]
      exact .skip hs ih
    · rw [e]
      exact .one hc ih

theorem nsx_named {v : Ver} {t : Term} {types : List (Option Nat)} (h : icmpTypes v t = .ok types) {k : Nat} (hk : some k ∈ types) :
    ∃ w ∈ t.icmpType, ∃ v, (w, k) ∈ Spec.icmpNumbers v := by
  by_cases hp : t.protocol = []
  · unfold icmpTypes at h
    rw [hp] at h
    cases h
    simp at hk
  · obtain ⟨_, h1, h2⟩ := nsx_types h hp
    by_cases h0 : t.icmpType = []
    · rw [h1 h0] at hk
      simp at hk
    · obtain ⟨w, hw, hm⟩ := (h2 h0).2.2 k hk
      exact ⟨w, hw, v, hm⟩

theorem side_nil {fams : List Ver} {v : Ver} {inc exc r : List Net} (h : side fams v inc exc = .ok r) (h0 : inc = []) : r = [] := by
  unfold side at h
  rw [h0] at h
  simp at h
  exact h

theorem sides_none {type : String} {s4 s6 d4 d6 : List Net} (h : sides type s4 s6 d4 d6 = none) :
    s4 ++ s6 ≠ [] ∧ d4 ++ d6 ≠ [] := by
  unfold sides balance at h
  split at h
  · split at h
    · cases h
    next hne => simpa [not_or] using hne
  · cases h

theorem nsxv_ruleOk (type : String) : NsxRuleOk actionsV (ruleV type) where
  some_ := by
    intro q r h
    unfold ruleV at h
    obtain ⟨types, ht, h⟩ := bind_ok h
    obtain ⟨s4, _, h⟩ := bind_ok h
    obtain ⟨s6, _, h⟩ := bind_ok h
    obtain ⟨d4, _, h⟩ := bind_ok h
    obtain ⟨d6, _, h⟩ := bind_ok h
    split at h
    · cases h
    · cases h
      refine ⟨rfl, rfl, by simp, fun s hs k hk => ?_⟩
      obtain ⟨w, _, hs⟩ := List.mem_flatMap.1 hs
      refine nsx_named ht (k := k) ?_
      unfold servicesV at hs
      split at hs
      · cases hs
      · split at hs
        · obtain ⟨ty, hty, rfl⟩ := List.mem_map.1 hs
          dsimp only at hk
          unfold printedType at hk
          split at hk
          · cases hk
          · rw [← hk]
            exact hty
        · rw [List.mem_singleton] at hs
          rw [hs] at hk
          cases hk
  none_ := by
    intro q h
    unfold ruleV at h
    obtain ⟨types, ht, h⟩ := bind_ok h
    obtain ⟨s4, h1, h⟩ := bind_ok h
    obtain ⟨s6, h2, h⟩ := bind_ok h
    obtain ⟨d4, h3, h⟩ := bind_ok h
    obtain ⟨d6, h4, h⟩ := bind_ok h
    split at h
    next hs =>
      obtain ⟨k1, k2⟩ := sides_none hs
      exact ⟨fun e => k1 (by rw [side_nil h1 e, side_nil h2 e]; rfl), fun e => k2 (by rw [side_nil h3 e, side_nil h4 e]; rfl)⟩
    · cases h

theorem nsxt_ruleOk (type : String) : NsxRuleOk actionsT (ruleT type) where
  some_ := by
    intro q r h
    unfold ruleT at h
    obtain ⟨s4, _, h⟩ := bind_ok h
    obtain ⟨d4, _, h⟩ := bind_ok h
    obtain ⟨s6, _, h⟩ := bind_ok h
    obtain ⟨d6, _, h⟩ := bind_ok h
    split at h
    · cases h
    · obtain ⟨types, ht, h⟩ := bind_ok h
      cases h
      refine ⟨rfl, rfl, by simp, fun s hs k hk => ?_⟩
      obtain ⟨w, _, hs⟩ := List.mem_flatMap.1 hs
      refine nsx_named ht (k := k) ?_
      unfold servicesT at hs
      split at hs
      · cases hs
      · split at hs
        · split at hs
          · rw [List.mem_singleton] at hs
            rw [hs] at hk
            cases hk
          · obtain ⟨ty, hty, rfl⟩ := List.mem_map.1 hs
            dsimp only at hk
            cases hk
            obtain ⟨x, hx, e⟩ := List.mem_filterMap.1 hty
            cases e
            exact hx
        · split at hs
          · rw [List.mem_singleton] at hs
            rw [hs] at hk
            cases hk
          · cases hs
  none_ := by
    intro q h
    unfold ruleT at h
    obtain ⟨s4, h1, h⟩ := bind_ok h
    obtain ⟨d4, h3, h⟩ := bind_ok h
    obtain ⟨s6, h2, h⟩ := bind_ok h
    obtain ⟨d6, h4, h⟩ := bind_ok h
    split at h
    next hs =>
      obtain ⟨k1, k2⟩ := sides_none hs
      refine ⟨fun e => k1 ?_, fun e => k2 ?_⟩
      · unfold source4 at h1
        rw [e] at h1
        simp at h1
        rw [h1, side_nil h2 e]
        rfl
      · unfold dest4 at h3
        rw [e] at h3
        simp at h3
        rw [h3, side_nil h4 e]
        rfl
    · obtain ⟨types, ht, h⟩ := bind_ok h
      cases h

/-- **C156**: the section for NSX-V has one rule for each of the terms of its filter, in their order, with the name, the action and
the logging of the term, except for terms that may be left out. -/
theorem C156_section {fs : List Nsx.Filter} {sec : Nsx.Section} (h : translateV fs = .ok sec) {f : Nsx.Filter} (hf : f ∈ fs)
    (hh : f.here = true) : Spec.Nsx.Listed "nsxv" Spec.Nsx.namesV f.terms sec.rules := by
  obtain ⟨g, hg, tg, _, _, _, _, hr, each⟩ := nsxv_section h
  have : f = g := by
    have : f ∈ fs.filter Filter.here := List.mem_filter.2 ⟨hf, hh⟩
    rw [hg] at this
    simpa using this
  subst this
  rw [hr]
  refine nsx_listed fun n hn => ?_
  obtain ⟨o, ho, hq⟩ := each n hn
  refine nsx_one (actions := actionsV) (err := .raised "NsxvAclTermError") (nsxv_ruleOk tg.type) (fun q => rfl)
    (fun w a hl => Cisco.mem_of_lookup' hl) (fun w hl => ?_) ho hq
  rw [List.lookup_eq_none_iff] at hl
  intro hm
  obtain ⟨e, he, rfl⟩ := List.mem_map.1 hm
  simpa using hl e he

/-- **C156**: the same for the policy for NSX-T. -/
theorem C156_policy {fs : List Nsx.Filter} {sec : Nsx.Section} (h : translateT fs = .ok sec) {f : Nsx.Filter} (hf : f ∈ fs)
    (hh : f.here = true) : Spec.Nsx.Listed "nsxt" Spec.Nsx.namesT f.terms sec.rules := by
  obtain ⟨g, hg, tg, _, _, _, _, hr, each⟩ := nsxt_section h
  have : f = g := by
    have : f ∈ fs.filter Filter.here := List.mem_filter.2 ⟨hf, hh⟩
    rw [hg] at this
    simpa using this
  subst this
  rw [hr]
  refine nsx_listed fun n hn => ?_
  obtain ⟨o, ho, hq⟩ := each n hn
  refine nsx_one (actions := actionsT) (err := .raised "NsxtAclTermError") (nsxt_ruleOk tg.type) (fun q => rfl)
    (fun w a hl => Cisco.mem_of_lookup' hl) (fun w hl => ?_) ho hq
  rw [List.lookup_eq_none_iff] at hl
  intro hm
  obtain ⟨e, he, rfl⟩ := List.mem_map.1 hm
  simpa using hl e he

/-- A filter whose terms are rendered, left out for their age and left out for their family. -/
def nsxCarryTerms : List NTerm :=
  [{ term := { name := "web".toList, action := ["accept"], protocol := ["tcp"], logging := ["true"] } },
   { term := { name := "old".toList, action := ["deny"] }, expired := true },
   { term := { name := "ping".toList, action := ["reject"], protocol := ["icmp"], icmpType := ["echo-request"] } },
   { term := { name := "six".toList, action := ["deny"], protocol := ["icmpv6"] } }]

example : (translateV [⟨true, ["in", "inet"], nsxCarryTerms⟩]).toOption.map (fun s => s.rules.map fun r => (r.name, r.action, r.logged)) =
    some [("web".toList, "allow", true), ("ping".toList, "reject", false)] := by decide +kernel

/-- The hypotheses of C156 hold for these terms. -/
example : ∃ s s', Spec.Nsx.Listed "nsxv" Spec.Nsx.namesV nsxCarryTerms s.rules ∧ translateV [⟨true, ["in", "inet"], nsxCarryTerms⟩] = .ok s ∧
    Spec.Nsx.Listed "nsxt" Spec.Nsx.namesT nsxCarryTerms s'.rules ∧ translateT [⟨true, ["in", "inet"], nsxCarryTerms⟩] = .ok s' := by
  have hv : (translateV [⟨true, ["in", "inet"], nsxCarryTerms⟩]).toOption.isSome = true := by decide +kernel
  have ht : (translateT [⟨true, ["in", "inet"], nsxCarryTerms⟩]).toOption.isSome = true := by decide +kernel
  cases h1 : translateV [⟨true, ["in", "inet"], nsxCarryTerms⟩] with
  | error e =>
    rw [h1] at hv
    cases hv
  | ok s =>
    cases h2 : translateT [⟨true, ["in", "inet"], nsxCarryTerms⟩] with
    | error e =>
      rw [h2] at ht
      cases ht
    | ok s' => exact ⟨s, s', C156_section h1 (List.mem_singleton.2 rfl) rfl, rfl, C156_policy h2 (List.mem_singleton.2 rfl) rfl, rfl⟩

end Verif.Props
