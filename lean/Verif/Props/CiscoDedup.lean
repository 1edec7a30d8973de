import Verif.Model.CiscoDedup
import Verif.Props.Cisco

/-!
# C61: removing duplicate object groups keeps the meaning of the configuration
-/

namespace Verif.Props
open Verif Verif.Cisco Verif.Spec

/-- What a device has under a group name: the contents of all definitions of the name. -/
def defs (gs : List PGroup) (af : Ver) (n : String) : List (List (Nat × Nat)) :=
  gs.filterMap fun g => if g.name = n ∧ g.af = af then some g.nets else none

/-- An entry with its group names replaced by what they stand for. -/
def expand (gs : List PGroup) (af : Ver) (toks : List GTok) : List (Sum GTok (List (List (Nat × Nat)))) :=
  toks.map fun
    | .netGroup n => .inr (defs gs af n)
    | t => .inl t

/-- The family of a list on the device. -/
def family (header : List String) : Ver := if header.head? = some "ipv6" then .v6 else .v4

/-- The configuration as the device sees it. -/
def meaning (d : Doc) : List (List String × List (List (Sum GTok (List (List (Nat × Nat)))))) :=
  d.acls.map fun a => (a.header, a.lines.map (expand d.groups (family a.header)))

/-- Every name is defined once per family. -/
def Once (gs : List PGroup) : Prop := (gs.map fun g => (g.name, g.af)).Nodup

theorem once_unique {gs : List PGroup} (h : Once gs) {g g' : PGroup} (hg : g ∈ gs) (hg' : g' ∈ gs)
    (hn : g.name = g'.name) (hv : g.af = g'.af) : g = g' := by
  unfold Once at h
  induction gs with
  | nil => cases hg
  | cons a gs ih =>
    rw [List.map_cons, List.nodup_cons] at h
    rcases List.mem_cons.1 hg with e | k <;> rcases List.mem_cons.1 hg' with e' | k'
    · rw [e, e']
    · exact absurd (List.mem_map.2 ⟨g', k', by rw [← hn, ← hv, e]⟩) h.1
    · exact absurd (List.mem_map.2 ⟨g, k, by rw [hn, hv, e']⟩) h.1
    · exact ih h.2 k k'

theorem defs_of_mem {gs : List PGroup} (h : Once gs) {g : PGroup} (hg : g ∈ gs) : defs gs g.af g.name = [g.nets] := by
  unfold Once at h
  unfold defs
  induction gs with
  | nil => cases hg
  | cons a gs ih =>
    rw [List.map_cons, List.nodup_cons] at h
    rcases List.mem_cons.1 hg with rfl | k
    · rw [List.filterMap_cons, if_pos ⟨rfl, rfl⟩]
      dsimp only
      congr 1
      rw [List.filterMap_eq_nil_iff]
      intro b hb
      rw [if_neg]
      rintro ⟨e1, e2⟩
      exact h.1 (List.mem_map.2 ⟨b, hb, by rw [e1, e2]⟩)
    · rw [List.filterMap_cons, if_neg]
      · exact ih h.2 k
      · rintro ⟨e1, e2⟩
        exact h.1 (List.mem_map.2 ⟨g, k, by rw [e1, e2]⟩)

theorem defs_of_not_mem {gs : List PGroup} {af : Ver} {n : String} (h : ∀ g ∈ gs, g.name = n → g.af ≠ af) :
    defs gs af n = [] := by
  unfold defs
  rw [List.filterMap_eq_nil_iff]
  intro g hg
  rw [if_neg]
  rintro ⟨e1, e2⟩
  exact h g hg e1 e2

/-- What the search for duplicates knows after some groups. -/
structure DupOk (af : Ver) (gs : List PGroup) (st : List (List (Nat × Nat) × String) × List (String × String)) : Prop where
  seen : ∀ nets m, st.1.lookup nets = some m → ⟨m, af, nets⟩ ∈ gs ∧ st.2.lookup m = none
  dup : ∀ n m, st.2.lookup n = some m → ∃ nets, ⟨n, af, nets⟩ ∈ gs ∧ st.1.lookup nets = some m
  all : ∀ g ∈ gs, g.af = af → st.1.lookup g.nets = some g.name ∨ (st.2.lookup g.name).isSome

theorem dupStep_ok {af : Ver} {gs : List PGroup} {st : List (List (Nat × Nat) × String) × List (String × String)}
    (h : DupOk af gs st) (g : PGroup) (ho : Once (gs ++ [g])) : DupOk af (gs ++ [g]) (dupStep af st g) := by
  have hfresh : ∀ g' ∈ gs, g'.af = g.af → g'.name ≠ g.name := by
    intro g' hg' hv hn
    unfold Once at ho
    rw [List.map_append, List.nodup_append] at ho
    exact ho.2.2 _ (List.mem_map.2 ⟨g', hg', rfl⟩) (g.name, g.af) (by simp) (by rw [hv, hn])
  have hl : ∀ {x}, x ∈ gs → x ∈ gs ++ [g] := fun hx => List.mem_append_left _ hx
  unfold dupStep
  split
  next hv =>
    have hdn : st.2.lookup g.name = none := by
      cases e : st.2.lookup g.name with
      | none => rfl
      | some m =>
        obtain ⟨nets, h1, _⟩ := h.dup _ _ e
        exact absurd rfl (hfresh ⟨g.name, af, nets⟩ h1 hv.symm)
    split
    next first hf =>
      refine ⟨?_, ?_, ?_⟩
      · intro nets m hm
        obtain ⟨h1, h2⟩ := h.seen nets m hm
        refine ⟨hl h1, ?_⟩
        have : (m == g.name) = false := by
          rw [beq_eq_false_iff_ne]
          exact hfresh _ h1 hv.symm
        rw [List.lookup_cons, this]
        exact h2
      · intro n m hm
        rw [List.lookup_cons] at hm
        split at hm
        next he =>
          cases hm
          rw [eq_of_beq he]
          exact ⟨g.nets, List.mem_append_right _ (by rw [← hv]; exact List.mem_singleton.2 rfl), hf⟩
        next =>
          obtain ⟨nets, h1, h2⟩ := h.dup n m hm
          exact ⟨nets, hl h1, h2⟩
      · intro g' hg' hv'
        rw [List.lookup_cons]
        rcases List.mem_append.1 hg' with hg' | hg'
        · rcases h.all g' hg' hv' with h1 | h1
          · exact .inl h1
          · right
            split
            · rfl
            · exact h1
        · right
          rw [List.mem_singleton.1 hg']
          simp
    next hf =>
      refine ⟨?_, ?_, ?_⟩
      · intro nets m hm
        rw [List.lookup_cons] at hm
        split at hm
        next he =>
          cases hm
          rw [eq_of_beq he]
          exact ⟨List.mem_append_right _ (by rw [← hv]; exact List.mem_singleton.2 rfl), hdn⟩
        next =>
          obtain ⟨h1, h2⟩ := h.seen nets m hm
          exact ⟨hl h1, h2⟩
      · intro n m hm
        obtain ⟨nets, h1, h2⟩ := h.dup n m hm
        refine ⟨nets, hl h1, ?_⟩
        rw [List.lookup_cons]
        split
        next he => rw [← eq_of_beq he, h2] at hf; cases hf
        next => exact h2
      · intro g' hg' hv'
        rw [List.lookup_cons]
        rcases List.mem_append.1 hg' with hg' | hg'
        · rcases h.all g' hg' hv' with h1 | h1
          · left
            split
            next he => rw [← eq_of_beq he, h1] at hf; cases hf
            next => exact h1
          · exact .inr h1
        · left
          rw [List.mem_singleton.1 hg']
          simp
  next hv =>
    refine ⟨?_, ?_, ?_⟩
    · intro nets m hm
      obtain ⟨h1, h2⟩ := h.seen nets m hm
      exact ⟨hl h1, h2⟩
    · intro n m hm
      obtain ⟨nets, h1, h2⟩ := h.dup n m hm
      exact ⟨nets, hl h1, h2⟩
    · intro g' hg' hv'
      rcases List.mem_append.1 hg' with hg' | hg'
      · exact h.all g' hg' hv'
      · rw [List.mem_singleton.1 hg'] at hv'
        exact absurd hv' hv

theorem dup_ok {af : Ver} {gs : List PGroup} (ho : Once gs) : DupOk af gs (gs.foldl (dupStep af) ([], [])) := by
  have key : ∀ (rest pre : List PGroup) st, DupOk af pre st → Once (pre ++ rest) →
      DupOk af (pre ++ rest) (rest.foldl (dupStep af) st) := by
    intro rest
    induction rest with
    | nil => intro pre st h _; simpa using h
    | cons g rest ih =>
      intro pre st h ho
      have e : pre ++ g :: rest = (pre ++ [g]) ++ rest := by simp
      rw [e] at ho ⊢
      rw [List.foldl_cons]
      refine ih _ _ (dupStep_ok h g ?_) ho
      unfold Once at ho ⊢
      rw [List.map_append] at ho
      exact (List.nodup_append.1 ho).1
  simpa using key gs [] ([], []) ⟨by simp, by simp, by simp⟩ (by simpa using ho)

theorem once_remove {gs : List PGroup} (ho : Once gs) (af : Ver) (dup : List (String × String)) :
    Once (removeGroups af dup gs) :=
  List.Nodup.sublist (List.Sublist.map _ List.filter_sublist) ho

theorem mem_remove {gs : List PGroup} {af : Ver} {dup : List (String × String)} {g : PGroup} :
    g ∈ removeGroups af dup gs ↔ g ∈ gs ∧ (g.af = af → dup.lookup g.name = none) := by
  unfold removeGroups
  rw [List.mem_filter]
  apply and_congr_right
  intro _
  by_cases hv : g.af = af <;> cases dup.lookup g.name <;> simp [hv]

/-- A renamed reference stands for the same addresses. -/
theorem rename_defs {gs : List PGroup} (ho : Once gs) (af : Ver) (n : String) :
    defs (removeGroups af (dupGroups af gs) gs) af (((dupGroups af gs).lookup n).getD n) = defs gs af n := by
  have ok := dup_ok (af := af) ho
  have ho' := once_remove ho af (dupGroups af gs)
  cases e : (dupGroups af gs).lookup n with
  | some m =>
    obtain ⟨nets, h1, h2⟩ := ok.dup n m e
    obtain ⟨h3, h4⟩ := ok.seen nets m h2
    have a1 := defs_of_mem ho h1
    have a2 := defs_of_mem ho' (mem_remove.2 ⟨h3, fun _ => h4⟩)
    dsimp only at a1 a2
    rw [Option.getD_some, a1, a2]
  | none =>
    rw [Option.getD_none]
    by_cases hex : ∃ g ∈ gs, g.name = n ∧ g.af = af
    · obtain ⟨g, hg, rfl, rfl⟩ := hex
      rw [defs_of_mem ho hg, defs_of_mem ho' (mem_remove.2 ⟨hg, fun _ => e⟩)]
    · rw [defs_of_not_mem fun g hg hn hv => hex ⟨g, hg, hn, hv⟩,
        defs_of_not_mem fun g hg hn hv => hex ⟨g, (mem_remove.1 hg).1, hn, hv⟩]

theorem other_defs {gs : List PGroup} {af af' : Ver} (hne : af' ≠ af) (dup : List (String × String)) (n : String) :
    defs (removeGroups af dup gs) af' n = defs gs af' n := by
  unfold defs removeGroups
  rw [List.filterMap_filter]
  congr 1
  funext g
  by_cases hv : g.af = af'
  · have : (g.af == af) = false := by rw [beq_eq_false_iff_ne, hv]; exact hne
    simp [this]
  · simp [hv]

/-- A header the removal recognises. -/
def Known (header : List String) : Prop :=
  ∃ name, header = ["ip", "access-list", "extended", name] ∨ header = ["ipv4", "access-list", name] ∨
    header = ["ipv6", "access-list", name]

theorem inside_known {h : List String} (hk : Known h) : inside h = some (family h) := by
  obtain ⟨name, rfl | rfl | rfl⟩ := hk
  · unfold inside family; simp
  · unfold inside family; simp
  · unfold inside family; simp

theorem expand_rename {gs gs' : List PGroup} {af : Ver} {dup : List (String × String)}
    (h : ∀ n, defs gs' af ((dup.lookup n).getD n) = defs gs af n) (toks : List GTok) :
    expand gs' af (toks.map (renameTok dup)) = expand gs af toks := by
  unfold expand
  rw [List.map_map]
  apply List.map_congr_left
  intro t _
  cases t with
  | netGroup n => exact congrArg Sum.inr (h n)
  | tok _ => rfl
  | portGroup _ _ => rfl

theorem expand_other {gs gs' : List PGroup} {af : Ver} (h : ∀ n, defs gs' af n = defs gs af n) (toks : List GTok) :
    expand gs' af toks = expand gs af toks := by
  unfold expand
  apply List.map_congr_left
  intro t _
  cases t with
  | netGroup n => exact congrArg Sum.inr (h n)
  | tok _ => rfl
  | portGroup _ _ => rfl

theorem header_replace (af : Ver) (dup : List (String × String)) (a : PAcl) : (replaceRefs af dup a).header = a.header := by
  unfold replaceRefs
  split <;> rfl

theorem family_meaning {d : Doc} (ho : Once d.groups) (hk : ∀ a ∈ d.acls, Known a.header) (af : Ver) :
    meaning (dedupFamily d af) = meaning d ∧ Once (dedupFamily d af).groups ∧
      ∀ a ∈ (dedupFamily d af).acls, Known a.header := by
  refine ⟨?_, once_remove ho _ _, ?_⟩
  · unfold meaning dedupFamily
    dsimp only
    rw [List.map_map]
    apply List.map_congr_left
    intro a ha
    have hi := inside_known (hk a ha)
    simp only [Function.comp, header_replace, Prod.mk.injEq, true_and]
    by_cases hf : family a.header = af
    · unfold replaceRefs
      rw [if_pos (by rw [hi, hf])]
      dsimp only
      rw [List.map_map]
      apply List.map_congr_left
      intro toks _
      rw [Function.comp, hf]
      exact expand_rename (rename_defs ho af) toks
    · unfold replaceRefs
      rw [if_neg (by rw [hi]; simpa using hf)]
      apply List.map_congr_left
      intro toks _
      exact expand_other (other_defs hf _) toks
  · intro a ha
    obtain ⟨a', ha', rfl⟩ := List.mem_map.1 ha
    rw [header_replace]
    exact hk a' ha'

theorem remove_distinct {gs : List PGroup} (ho : Once gs) {af : Ver} {g g' : PGroup}
    (hg : g ∈ removeGroups af (dupGroups af gs) gs) (hg' : g' ∈ removeGroups af (dupGroups af gs) gs) (hv : g.af = af)
    (hv' : g'.af = af) (hn : g.nets = g'.nets) : g = g' := by
  have ok := dup_ok (af := af) ho
  obtain ⟨m1, d1⟩ := mem_remove.1 hg
  obtain ⟨m2, d2⟩ := mem_remove.1 hg'
  have k1 := (ok.all g m1 hv).resolve_right (by
    have : (List.foldl (dupStep af) ([], []) gs).2.lookup g.name = none := d1 hv
    rw [this]; simp)
  have k2 := (ok.all g' m2 hv').resolve_right (by
    have : (List.foldl (dupStep af) ([], []) gs).2.lookup g'.name = none := d2 hv'
    rw [this]; simp)
  rw [hn, k2] at k1
  exact once_unique ho m1 m2 (Option.some.inj k1).symm (hv.trans hv'.symm)

/-- C61 (partial): if every group name is defined once per family and the lists are those of IOS or IOS XR, the
removal of duplicate groups changes no entry's meaning, and leaves no two groups of a family with the same
content. Missing: documents with a group defined twice, and NX-OS and EOS lists (refuted below). -/
theorem C61_meaning_partial {d : Doc} (ho : Once d.groups) (hk : ∀ a ∈ d.acls, Known a.header) :
    meaning (dedup d) = meaning d ∧
    ∀ g ∈ (dedup d).groups, ∀ g' ∈ (dedup d).groups, g.af = g'.af → g.nets = g'.nets → g = g' := by
  obtain ⟨h1, h2, h3⟩ := family_meaning ho hk .v4
  obtain ⟨h4, h5, h6⟩ := family_meaning h2 h3 .v6
  refine ⟨h4.trans h1, ?_⟩
  intro g hg g' hg' hv hn
  cases hgv : g.af with
  | v6 => exact remove_distinct h2 hg hg' hgv (hv.symm.trans hgv) hn
  | v4 =>
    exact remove_distinct ho (mem_remove.1 hg).1 (mem_remove.1 hg').1 hgv (hv.symm.trans hgv) hn

/-- Three groups, two of them equal. -/
def exDoc (c : Cfg) : Doc :=
  { groups := [⟨"CORP", .v4, [(10 * 2 ^ 24, 8)]⟩, ⟨"WEB", .v4, [(11 * 2 ^ 24, 8)]⟩, ⟨"OFFICE", .v4, [(10 * 2 ^ 24, 8)]⟩,
      ⟨"OFFICE", .v6, [(2 ^ 125, 16)]⟩],
    acls := [⟨aclHeader c .v4 "four", [[.tok (.w "permit"), .netGroup "OFFICE", .netGroup "WEB", .portGroup 80 80]]⟩,
      ⟨aclHeader c .v6 "six", [[.tok (.w "permit"), .netGroup "OFFICE", .tok (.w "any")]]⟩] }

theorem exDoc_ok : ∀ c ∈ [ios, xr], Once (exDoc c).groups ∧ ∀ a ∈ (exDoc c).acls, Known a.header := by
  intro c hc
  refine ⟨by unfold Once; show List.Nodup _; revert c; decide, ?_⟩
  intro a ha
  simp only [List.mem_cons, List.not_mem_nil, or_false] at hc
  simp only [exDoc, List.mem_cons, List.not_mem_nil, or_false] at ha
  rcases hc with rfl | rfl <;> rcases ha with rfl | rfl
  · exact ⟨"four", .inl (by decide)⟩
  · exact ⟨"six", .inr (.inr (by decide))⟩
  · exact ⟨"four", .inr (.inl (by decide))⟩
  · exact ⟨"six", .inr (.inr (by decide))⟩

example : dedup (exDoc ios) =
    { groups := [⟨"CORP", .v4, [(10 * 2 ^ 24, 8)]⟩, ⟨"WEB", .v4, [(11 * 2 ^ 24, 8)]⟩, ⟨"OFFICE", .v6, [(2 ^ 125, 16)]⟩],
      acls := [⟨["ip", "access-list", "extended", "four"],
          [[.tok (.w "permit"), .netGroup "CORP", .netGroup "WEB", .portGroup 80 80]]⟩,
        ⟨["ipv6", "access-list", "six"], [[.tok (.w "permit"), .netGroup "OFFICE", .tok (.w "any")]]⟩] } := by
  decide +kernel

/-- C61 is false if two filters of a policy use the same network: both definitions are removed, as each is a
duplicate of its own name, and the references are left without a group. -/
theorem C61_refuted_twice : ∃ (t u : Policy.Term), Accepted ios t ∧ Accepted ios u ∧
    let gs := (netGroups .v4 [t] ++ netGroups .v4 [u]).map printGroup
    let d : Doc := ⟨gs, [⟨aclHeader ios .v4 "a", [[.tok (.w "permit"), .tok (.w "ip"), .netGroup "CORP", .tok (.w "any")]]⟩]⟩
    renderGroupTerm [] "cisco" .v4 t = .ok [.inl [.tok (.w "permit"), .tok (.w "ip"), .netGroup "CORP", .tok (.w "any")]] ∧
    (dedup d).groups = [] ∧ (dedup d).acls = d.acls :=
  ⟨{ name := "t".toList, action := ["accept"], sourceAddress := [{ ip4 10 0 0 0 8 with parent := "CORP" }] },
   { name := "u".toList, action := ["deny"], destinationAddress := [{ ip4 10 0 0 0 8 with parent := "CORP" }] },
   by decide +kernel, by decide +kernel, by decide +kernel⟩

/-- C61 is false for NX-OS and EOS: groups are removed, references in IPv4 lists are not replaced. -/
theorem C61_refuted_platform : ∀ c ∈ [nx, eos], Once (exDoc c).groups ∧
    (⟨"OFFICE", .v4, [(10 * 2 ^ 24, 8)]⟩ : PGroup) ∈ (exDoc c).groups ∧ defs (dedup (exDoc c)).groups .v4 "OFFICE" = [] ∧
    ∃ a ∈ (dedup (exDoc c)).acls, a.header = ["ip", "access-list", "four"] ∧ ∃ l ∈ a.lines, .netGroup "OFFICE" ∈ l := by
  unfold Once
  decide +kernel

/-! ### C62 -/

/-- What `platform` and `platform_exclude` of a term say. -/
def Meant (platform : String) (t : Policy.Term) : Prop :=
  (t.platform = [] ∨ platform ∈ t.platform) ∧ platform ∉ t.platformExclude

theorem groupOn_iff {platform : String} {t : Policy.Term} : onPlatform platform t = true ↔ Meant platform t :=
  onPlatform_iff (c := { ios with platform := platform })

/-- C62 (partial): in extended, standard and IPv6 lists a term that is not meant for the platform renders
nothing, and so it does in object-group lists of IOS and IOS XR. Missing: object-group lists of NX-OS and EOS,
which use the restrictions of IOS (refuted below). -/
theorem C62_platform_partial (c : Cfg) (t : Policy.Term) (h : ¬ Meant c.platform t) :
    (∀ af dsmo nip ls, renderTerm c af dsmo t nip = .ok ls → ls = []) ∧ (∀ name, renderStandard c name t = .ok []) ∧
    (c.platform = "cisco" ∨ c.platform = "ciscoxr" → ∀ af ls,
      renderGroupTerm (groupExtra c) (groupPlatform c) af t = .ok ls → ls = []) := by
  have hn : onPlatform c.platform t = false := by
    cases e : onPlatform c.platform t with
    | true => exact absurd (groupOn_iff.1 e) h
    | false => rfl
  refine ⟨?_, ?_, ?_⟩
  · intro af dsmo nip ls hr
    unfold renderTerm at hr
    obtain ⟨ps, _, hr⟩ := bind_ok hr
    rw [hn] at hr
    simpa using hr.symm
  · intro name
    unfold renderStandard
    simp [hn]
  · intro hp af ls hr
    have hg : groupPlatform c = c.platform := by
      unfold groupPlatform
      rcases hp with e | e <;> rw [e] <;> decide
    unfold renderGroupTerm at hr
    obtain ⟨ps, _, hr⟩ := bind_ok hr
    rw [hg, hn] at hr
    simpa using hr.symm

example : ¬ Meant ios.platform { platform := ["arista"] } := by unfold Meant; decide

/-- C62 is false for object-group lists of NX-OS and EOS: a term for the platform is left out, and one that
excludes it is rendered. -/
theorem C62_refuted_objectgroup : ∀ c ∈ [nx, eos], ∃ (t u : Policy.Term), Accepted c t ∧ Accepted c u ∧
    Meant c.platform t ∧ renderGroupTerm (groupExtra c) (groupPlatform c) .v4 t = .ok [] ∧
    ¬ Meant c.platform u ∧ renderGroupTerm (groupExtra c) (groupPlatform c) .v4 u =
      .ok [.inl [.tok (.w "permit"), .tok (.w "ip"), .tok (.w "any"), .tok (.w "any")]] := by
  intro c hc
  refine ⟨{ name := "t".toList, action := ["accept"], platform := [c.platform] },
    { name := "u".toList, action := ["accept"], platformExclude := [c.platform] }, ?_⟩
  unfold Meant
  revert c
  decide +kernel

end Verif.Props
