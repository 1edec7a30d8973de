import Verif.Props.AristaTp
import Verif.Props.Aruba
import Verif.Props.IptablesFilter
import Verif.Lemmas.AristaTpNames
import Verif.Lemmas.FirstMatch

/-!
Property theorems C122-C125, continued: the whole output of capirca/lib/arista_tp.py.
-/

namespace Verif.Props
open Verif Verif.Spec Verif.Spec.Eos Verif.AristaTp Policy Aclgenerator
open Verif.Juniper (minimizePrefixes mem_minimize_fst mem_minimize_snd removeFirst)

/-! ### names -/

/-- The addresses of a direction. -/
def addrsOf (a : ATerm) : Dir → List Net
  | .source => a.term.sourceAddress
  | .destination => a.term.destinationAddress

/-- The excluded addresses of a direction. -/
def exclOf (a : ATerm) : Dir → List Net
  | .source => a.term.sourceAddressExclude
  | .destination => a.term.destinationAddressExclude

/-- The term, in a filter with the options, may have a field set for the direction. -/
def UsesSet (opts : List String) (a : ATerm) (d : Dir) : Prop :=
  addrsOf a d ++ exclOf a d ≠ [] ∧ (exclOf a d ≠ [] ∨ "field_set" ∈ opts.tail)

/-- The term is called `default-…`. -/
def NamedDefault (a : ATerm) : Prop := ∃ n, a.term.name.map Char.toLower = "default-".toList ++ n

/-- Names that keep clear of the names the tool makes up, and of each other. -/
structure AtpNames (fs : List Filter) : Prop where
  head : ∀ f ∈ fs, f.here = true → f.options.head? ≠ some "field_set"
  clean : ∀ f ∈ fs, f.here = true → ∀ a ∈ f.terms, Clean a.term.name ∧
    ∀ s ∈ a.term.sourcePrefix ++ a.term.destinationPrefix, Clean s.toList
  plain : ∀ f ∈ fs, f.here = true → ∀ a ∈ f.terms, ¬ "ipv4-".toList <+: a.term.name ∧ ¬ "ipv6-".toList <+: a.term.name ∧
    ¬ a.term.name <+: "ipv6-".toList
  defaults : ∀ f ∈ fs, f.here = true → ∀ a ∈ f.terms, NamedDefault a → ∀ d, ¬ UsesSet f.options a d
  tidy : ∀ f ∈ fs, f.here = true → ∀ a ∈ f.terms, ∀ b ∈ f.terms, ∀ d, UsesSet f.options a d → UsesSet f.options b d →
    b.term.name <+: a.term.name → b.term.name = a.term.name
  apart : (fs.filter Filter.here).Pairwise fun f g => ∀ v, About f.options v → About g.options v →
    ∀ a ∈ f.terms, ∀ b ∈ g.terms, ∀ d, UsesSet f.options a d → UsesSet g.options b d → a.term.name ≠ b.term.name

/-! ### one filter -/

/-- The prepared terms of a pair. -/
def preOf (type : String) (x : String × ATerm) : List PTerm :=
  match AristaTp.prepare type x.1 x.2 with
  | .ok r => r.toList
  | .error _ => []

/-- The text of a prepared term. -/
def textOf (us : Bool) (q : PTerm) : List Out :=
  match AristaTp.render us q with
  | .ok r => r.toList
  | .error _ => []

/-- All field sets of a filter. -/
def allSets (f : Filter) : List FieldSet :=
  ((pairs (typeOf f.options) f.terms).flatMap (preOf (typeOf f.options))).flatMap (fieldSetsOf (useSetsOf f.options))

/-- The new names of a filter. -/
def renOf (f : Filter) : List (Str × Str) := (dedup [] (allSets f)).2

theorem filterMap_toList {α : Type} : ∀ l : List (Option α), l.filterMap id = l.flatMap Option.toList
  | [] => rfl
  | none :: l => by simp [filterMap_toList l]
  | some a :: l => by simp [filterMap_toList l]

theorem filter_shape {removes : Bool} {f : Filter} {b : Block} (h : renderFilter removes f = .ok b) :
    ((pairs (typeOf f.options) f.terms).map fun x => finalName (typeOf f.options) x.1 x.2.term.name).Nodup ∧
    (∀ x ∈ pairs (typeOf f.options) f.terms, ∃ r, AristaTp.prepare (typeOf f.options) x.1 x.2 = .ok r ∧
      ∀ q, r = some q → ∃ o, AristaTp.render (useSetsOf f.options) q = .ok o) ∧
    b.fieldSets = (dedup [] (allSets f)).1 ∧ b.name = f.options.head? ∧ b.removes = removes ∧
    b.items = (((pairs (typeOf f.options) f.terms).flatMap (preOf (typeOf f.options))).flatMap (textOf (useSetsOf f.options))).map
      (renameOut (renOf f)) ∧
    ∀ c, c ∈ b.counters ↔ ∃ q ∈ (pairs (typeOf f.options) f.terms).flatMap (preOf (typeOf f.options)), q.item.counter ≠ "" ∧
      counterName q.item.counter = c := by
  unfold renderFilter at h
  dsimp only at h
  split at h
  · cases h
  next hd =>
    obtain ⟨os, h1, h⟩ := bind_ok h
    obtain ⟨is, h2, h⟩ := bind_ok h
    have e1 : os.filterMap id = (pairs (typeOf f.options) f.terms).flatMap (preOf (typeOf f.options)) := by
      rw [filterMap_toList, listM_flat h1]
      congr 1
      funext x
      unfold preOf
      cases AristaTp.prepare (typeOf f.options) x.1 x.2 <;> rfl
    have e2 : is.filterMap id = ((pairs (typeOf f.options) f.terms).flatMap (preOf (typeOf f.options))).flatMap
        (textOf (useSetsOf f.options)) := by
      rw [filterMap_toList, listM_flat h2, e1]
      congr 1
      funext x
      unfold textOf
      cases AristaTp.render (useSetsOf f.options) x <;> rfl
    have e3 : (os.filterMap id).flatMap (fieldSetsOf (useSetsOf f.options)) = allSets f := by
      unfold allSets
      rw [e1]
    cases h
    refine ⟨hasDup_nodup _ (by simpa using hd), ?_, ?_, rfl, rfl, ?_, ?_⟩
    · intro x hx
      obtain ⟨r, hr⟩ := Cisco.listM_each h1 x hx
      refine ⟨r, hr, fun q e => ?_⟩
      subst e
      exact Cisco.listM_each h2 q (List.mem_filterMap.2 ⟨_, (listM_mem h1 _).2 ⟨x, hx, hr⟩, rfl⟩)
    · show (dedup [] ((os.filterMap id).flatMap (fieldSetsOf (useSetsOf f.options)))).1 = _
      rw [e3]
    · show ((is.filterMap id).map (renameOut (dedup [] ((os.filterMap id).flatMap (fieldSetsOf (useSetsOf f.options)))).2)) = _
      rw [e3, e2]
      rfl
    · intro c
      show c ∈ (((os.filterMap id).filter _).map _).eraseDups ↔ _
      rw [List.mem_eraseDups, List.mem_map, e1]
      simp only [List.mem_filter, bne_iff_ne, and_assoc]

theorem mem_pairs {type : String} {ts : List ATerm} {x : String × ATerm} :
    x ∈ pairs type ts ↔ x.1 ∈ families type ∧ x.2 ∈ ts := by
  unfold pairs
  rw [List.mem_flatMap]
  constructor
  · rintro ⟨a, ha, h⟩
    obtain ⟨ft, hf, rfl⟩ := List.mem_map.1 h
    exact ⟨hf, ha⟩
  · rintro ⟨h1, h2⟩
    exact ⟨x.2, h2, List.mem_map.2 ⟨x.1, h1, rfl⟩⟩

theorem mem_preOf {type : String} {x : String × ATerm} {q : PTerm} :
    q ∈ preOf type x ↔ AristaTp.prepare type x.1 x.2 = .ok (some q) := by
  unfold preOf
  cases AristaTp.prepare type x.1 x.2 with
  | error e => simp
  | ok r => cases r <;> simp [eq_comm]

theorem mem_textOf {us : Bool} {q : PTerm} {o : Out} : o ∈ textOf us q ↔ AristaTp.render us q = .ok (some o) := by
  unfold textOf
  cases AristaTp.render us q with
  | error e => simp
  | ok r => cases r <;> simp [eq_comm]

theorem mem_pre {f : Filter} {q : PTerm} :
    q ∈ (pairs (typeOf f.options) f.terms).flatMap (preOf (typeOf f.options)) ↔
      ∃ ft ∈ families (typeOf f.options), ∃ a ∈ f.terms, AristaTp.prepare (typeOf f.options) ft a = .ok (some q) := by
  rw [List.mem_flatMap]
  constructor
  · rintro ⟨x, hx, hq⟩
    obtain ⟨h1, h2⟩ := mem_pairs.1 hx
    exact ⟨x.1, h1, x.2, h2, mem_preOf.1 hq⟩
  · rintro ⟨ft, h1, a, h2, hq⟩
    exact ⟨(ft, a), mem_pairs.2 ⟨h1, h2⟩, mem_preOf.2 hq⟩

theorem two_families {type ft : String} (h : ft ∈ families type) {a : ATerm} {r : Option PTerm}
    (hp : AristaTp.prepare type ft a = .ok r) :
    (ft = "inet" ∨ ft = "inet6") ∧ (type = "mixed" ∨ type = ft) := by
  have := prepare_families hp
  unfold families at h
  split at h
  next e =>
    simp only [List.mem_cons, List.not_mem_nil, or_false] at h
    exact ⟨h, .inl e⟩
  next e =>
    rw [List.mem_singleton] at h
    subst h
    exact ⟨by simpa [e] using this, .inr rfl⟩

theorem afOf_inj {a b : String} (ha : a = "inet" ∨ a = "inet6") (hb : b = "inet" ∨ b = "inet6") (h : afOf a = afOf b) : a = b := by
  rcases ha with rfl | rfl <;> rcases hb with rfl | rfl <;> first | rfl | cases h

/-- A field set of a filter belongs to a term, a family and a direction. -/
theorem mem_allSets {f : Filter} {x : FieldSet} : x ∈ allSets f ↔
    ∃ ft ∈ families (typeOf f.options), ∃ a ∈ f.terms, (∃ q, AristaTp.prepare (typeOf f.options) ft a = .ok (some q)) ∧
      ∃ d, x ∈ fieldSetOf (useSetsOf f.options) (afOf ft) (finalName (typeOf f.options) ft a.term.name) d (addrsOf a d) (exclOf a d) := by
  unfold allSets
  rw [List.mem_flatMap]
  have key : ∀ {ft a q}, AristaTp.prepare (typeOf f.options) ft a = .ok (some q) → (x ∈ fieldSetsOf (useSetsOf f.options) q ↔
      ∃ d, x ∈ fieldSetOf (useSetsOf f.options) (afOf ft) (finalName (typeOf f.options) ft a.term.name) d (addrsOf a d) (exclOf a d)) := by
    intro ft a q h
    obtain ⟨_, ports, rfl⟩ := prepare_shape h
    unfold fieldSetsOf
    dsimp only
    rw [List.mem_append]
    constructor
    · rintro (h | h)
      · exact ⟨.source, h⟩
      · exact ⟨.destination, h⟩
    · rintro ⟨d, h⟩
      cases d
      · exact .inl h
      · exact .inr h
  constructor
  · rintro ⟨q, hq, hx⟩
    obtain ⟨ft, h1, a, h2, h3⟩ := mem_pre.1 hq
    exact ⟨ft, h1, a, h2, ⟨q, h3⟩, (key h3).1 hx⟩
  · rintro ⟨ft, h1, a, h2, ⟨q, h3⟩, h⟩
    exact ⟨q, mem_pre.2 ⟨ft, h1, a, h2, h3⟩, (key h3).2 h⟩

theorem fieldSetOf_uses {opts : List String} {v : Ver} {name : Str} {a : ATerm} {d : Dir} {x : FieldSet}
    (h : x ∈ fieldSetOf (useSetsOf opts) v name d (addrsOf a d) (exclOf a d)) : UsesSet opts a d := by
  obtain ⟨_, _, h1, h2⟩ := mem_fieldSetOf h
  refine ⟨h1, h2.imp_right fun h => ?_⟩
  unfold useSetsOf at h
  rwa [List.contains_iff_mem] at h

theorem allSets_keys (f : Filter) : Keys (renOf f) := by
  intro r hr
  obtain ⟨x, hx, k, _, rfl, _⟩ := (dedup_spec (allSets f) []).2.2.1 r hr
  obtain ⟨ft, _, a, _, _, d, h⟩ := mem_allSets.1 hx
  obtain ⟨rfl, _⟩ := mem_fieldSetOf h
  exact setName_keys _ _

theorem typeOf_spec {opts : List String} (h : opts.head? ≠ some "field_set") :
    typeOf opts = ((opts.tail.erase "field_set").head?).getD "mixed" := by
  have hr : ∀ l : List String, removeFirst "field_set" l = l.erase "field_set" := by
    intro l
    induction l with
    | nil => rfl
    | cons x l ih =>
      rw [removeFirst, List.erase_cons, ih]
      simp
  unfold typeOf
  cases opts with
  | nil => rfl
  | cons o os =>
    have ho : o ≠ "field_set" := by simpa using h
    have : (if useSetsOf (o :: os) = true then removeFirst "field_set" (o :: os) else o :: os) = o :: os.erase "field_set" := by
      split
      · rw [removeFirst, if_neg ho, hr]
      next hc =>
        unfold useSetsOf at hc
        rw [List.contains_iff_mem, List.tail_cons] at hc
        rw [List.erase_of_not_mem hc]
    rw [this, List.tail_cons, List.getElem?_cons_succ, List.head?_eq_getElem?]
    cases (os.erase "field_set")[0]? <;> rfl

/-- The filter goes through the family of a version exactly if it is about the version. -/
theorem about_iff {opts : List String} (h : opts.head? ≠ some "field_set") (v : Ver) :
    About opts v ↔ ∃ ft ∈ families (typeOf opts), (ft = "inet" ∨ ft = "inet6") ∧ afOf ft = v := by
  rw [typeOf_spec h]
  unfold About families
  cases (opts.tail.erase "field_set").head? with
  | none =>
    refine ⟨fun _ => ?_, fun _ => trivial⟩
    cases v
    · exact ⟨"inet", by simp, by simp, rfl⟩
    · exact ⟨"inet6", by simp, by simp, rfl⟩
  | some t =>
    simp only [Option.getD_some]
    by_cases ht : t = "mixed"
    · subst ht
      refine ⟨fun _ => ?_, fun _ => .inl rfl⟩
      cases v
      · exact ⟨"inet", by simp, by simp, rfl⟩
      · exact ⟨"inet6", by simp, by simp, rfl⟩
    · rw [if_neg ht]
      simp only [List.mem_singleton, ht, false_or]
      constructor
      · rintro (⟨rfl, rfl⟩ | ⟨rfl, rfl⟩)
        · exact ⟨_, rfl, .inl rfl, rfl⟩
        · exact ⟨_, rfl, .inr rfl, rfl⟩
      · rintro ⟨_, rfl, rfl | rfl, rfl⟩
        · exact .inl ⟨rfl, rfl⟩
        · exact .inr ⟨rfl, rfl⟩

theorem nodup_inj {α β : Type} {g : α → β} : ∀ {l : List α}, (l.map g).Nodup → ∀ {x y}, x ∈ l → y ∈ l → g x = g y → x = y
  | [], _, x, _, hx, _, _ => by cases hx
  | a :: l, h, x, y, hx, hy, e => by
    rw [List.map_cons, List.nodup_cons] at h
    rcases List.mem_cons.1 hx with h1 | h1
    · rcases List.mem_cons.1 hy with h2 | h2
      · rw [h1, h2]
      · exact absurd (List.mem_map.2 ⟨y, h2, by rw [← e, h1]⟩) h.1
    · rcases List.mem_cons.1 hy with h2 | h2
      · exact absurd (List.mem_map.2 ⟨x, h1, by rw [e, h2]⟩) h.1
      · exact nodup_inj h.2 h1 h2 e

theorem pairwise_any {α : Type} {R : α → α → Prop} : ∀ {l : List α}, l.Pairwise R → ∀ {x y}, x ∈ l → y ∈ l → x = y ∨ R x y ∨ R y x
  | [], _, x, _, hx, _ => by cases hx
  | a :: l, h, x, y, hx, hy => by
    rw [List.pairwise_cons] at h
    rcases List.mem_cons.1 hx with h1 | h1
    · rcases List.mem_cons.1 hy with h2 | h2
      · exact .inl (by rw [h1, h2])
      · exact .inr (.inl (h1 ▸ h.1 y h2))
    · rcases List.mem_cons.1 hy with h2 | h2
      · exact .inr (.inr (h2 ▸ h.1 x h1))
      · exact pairwise_any h.2 h1 h2

/-- Names of ordinary terms. -/
theorem final_plain {type ft : String} {a : ATerm} (h : ¬ NamedDefault a) :
    finalName type ft a.term.name = a.term.name ∧ ¬ (type = "mixed" ∧ ft = "inet6") ∨
      finalName type ft a.term.name = "ipv6-".toList ++ a.term.name ∧ (type = "mixed" ∧ ft = "inet6") := by
  unfold finalName
  rw [if_neg (fun h' => h (startsLower_iff.1 h'))]
  split
  next hc => exact .inr ⟨rfl, by simpa using hc⟩
  next hc => exact .inl ⟨rfl, by simpa using hc⟩

/-- The names of the terms of a filter are different. -/
def NamesDiffer (f : Filter) : Prop :=
  ((pairs (typeOf f.options) f.terms).map fun x => finalName (typeOf f.options) x.1 x.2.term.name).Nodup

theorem sets_in_filter {f : Filter} (hd : NamesDiffer f) {x y : FieldSet} (hx : x ∈ allSets f) (hy : y ∈ allSets f)
    (h : x.name = y.name) : x = y := by
  obtain ⟨ft, h1, a, h2, _, d, h3⟩ := mem_allSets.1 hx
  obtain ⟨ft', h1', a', h2', _, d', h3'⟩ := mem_allSets.1 hy
  obtain ⟨rfl, _⟩ := mem_fieldSetOf h3
  obtain ⟨rfl, _⟩ := mem_fieldSetOf h3'
  obtain ⟨rfl, hn⟩ := AristaTp.setName_inj h
  have := nodup_inj hd (x := (ft, a)) (y := (ft', a')) (mem_pairs.2 ⟨h1, h2⟩) (mem_pairs.2 ⟨h1', h2'⟩) hn
  cases this
  rfl

theorem sets_across {fs : List Filter} (N : AtpNames fs) {f g : Filter} (hf : f ∈ fs) (hf' : f.here = true) (hg : g ∈ fs)
    (hg' : g.here = true) (hd : NamesDiffer f) {x y : FieldSet} (hx : x ∈ allSets f) (hy : y ∈ allSets g)
    (h : x.name = y.name) (hv : x.family = y.family) : x = y := by
  by_cases hfg : f = g
  · subst hfg
    exact sets_in_filter hd hx hy h
  · exfalso
    obtain ⟨ft, h1, a, h2, ⟨q, hq⟩, d, h3⟩ := mem_allSets.1 hx
    obtain ⟨ft', h1', a', h2', ⟨q', hq'⟩, d', h3'⟩ := mem_allSets.1 hy
    have U := fieldSetOf_uses h3
    have U' := fieldSetOf_uses h3'
    obtain ⟨rfl, _⟩ := mem_fieldSetOf h3
    obtain ⟨rfl, _⟩ := mem_fieldSetOf h3'
    obtain ⟨rfl, hn⟩ := AristaTp.setName_inj h
    have hv : afOf ft = afOf ft' := hv
    have hnd : ¬ NamedDefault a := fun h => N.defaults f hf hf' a h2 h d U
    have hnd' : ¬ NamedDefault a' := fun h => N.defaults g hg hg' a' h2' h d U'
    have he : a.term.name = a'.term.name := by
      rcases final_plain (type := typeOf f.options) (ft := ft) hnd with ⟨e, _⟩ | ⟨e, _⟩ <;>
        rcases final_plain (type := typeOf g.options) (ft := ft') hnd' with ⟨e', _⟩ | ⟨e', _⟩ <;> rw [e, e'] at hn
      · exact hn
      · exact absurd ⟨_, hn.symm⟩ (N.plain f hf hf' a h2).2.1
      · exact absurd ⟨_, hn⟩ (N.plain g hg hg' a' h2').2.1
      · exact List.append_cancel_left hn
    have A : About f.options (afOf ft) := (about_iff (N.head f hf hf') _).2 ⟨ft, h1, (two_families h1 hq).1, rfl⟩
    have A' : About g.options (afOf ft) := (about_iff (N.head g hg hg') _).2 ⟨ft', h1', (two_families h1' hq').1, hv.symm⟩
    rcases pairwise_any N.apart (List.mem_filter.2 ⟨hf, hf'⟩) (List.mem_filter.2 ⟨hg, hg'⟩) with h | h | h
    · exact hfg h
    · exact h _ A A' a h2 a' h2' d U U' he
    · exact h _ A' A a' h2' a h2 d U' U he.symm

/-- The name of a field set becomes that of one with the same contents. -/
theorem renamed_set {fs : List Filter} (N : AtpNames fs) {f : Filter} (hf : f ∈ fs) (hf' : f.here = true) (hd : NamesDiffer f)
    {x : FieldSet} (hx : x ∈ allSets f) :
    ∃ k ∈ (dedup [] (allSets f)).1, rename (renOf f) x.name = k.name ∧ k.pfxs = x.pfxs ∧ k.excepts = x.excepts ∧
      k.family = x.family := by
  obtain ⟨_, D2, D3, D4⟩ := dedup_spec (allSets f) []
  obtain ⟨ft, h1, a, h2, ⟨q, hq⟩, d, h3⟩ := mem_allSets.1 hx
  have U := fieldSetOf_uses h3
  have hnd : ¬ NamedDefault a := fun h => N.defaults f hf hf' a h2 h d U
  have hcl : Clean (finalName (typeOf f.options) ft a.term.name) := by
    have C := (N.clean f hf hf' a h2).1
    rcases final_plain (type := typeOf f.options) (ft := ft) hnd with ⟨e, _⟩ | ⟨e, _⟩ <;> rw [e]
    · exact C
    · have key : ∀ (c : Char) (cs : Str), c ≠ 's' → c ≠ 'd' → Clean cs → Clean (c :: cs) := by
        intro c cs hs hd h
        unfold Clean
        rw [List.infix_cons_iff, List.infix_cons_iff]
        refine ⟨fun h' => h'.elim (fun h' => ?_) h.1, fun h' => h'.elim (fun h' => ?_) h.2⟩
        · obtain ⟨t, e⟩ := h'
          exact hs (List.cons.inj e).1.symm
        · obtain ⟨t, e⟩ := h'
          exact hd (List.cons.inj e).1.symm
      exact key _ _ (by decide) (by decide) (key _ _ (by decide) (by decide) (key _ _ (by decide) (by decide)
        (key _ _ (by decide) (by decide) (key _ _ (by decide) (by decide) C))))
  obtain ⟨rfl, hne, _⟩ := mem_fieldSetOf h3
  have hpre : ∀ r ∈ renOf f, r.1 <+: setName d (finalName (typeOf f.options) ft a.term.name) →
      r.1 = setName d (finalName (typeOf f.options) ft a.term.name) := by
    intro r hr hp
    obtain ⟨y, hy, k, _, rfl, _⟩ := D3 r hr
    obtain ⟨ft', h1', a', h2', ⟨q', hq'⟩, d', h3'⟩ := mem_allSets.1 hy
    have U' := fieldSetOf_uses h3'
    have hnd' : ¬ NamedDefault a' := fun h => N.defaults f hf hf' a' h2' h d' U'
    obtain ⟨rfl, _⟩ := mem_fieldSetOf h3'
    have hp : setName d' (finalName (typeOf f.options) ft' a'.term.name) <+: setName d (finalName (typeOf f.options) ft a.term.name) := hp
    show setName d' _ = _
    have hdd : d' = d ∧ finalName (typeOf f.options) ft' a'.term.name <+: finalName (typeOf f.options) ft a.term.name := by
      cases d <;> cases d' <;> simp_all [setName]
    obtain ⟨rfl, hfin⟩ := hdd
    have P := N.plain f hf hf' a h2
    have P' := N.plain f hf hf' a' h2'
    congr 1
    rcases final_plain (type := typeOf f.options) (ft := ft) hnd with ⟨e, _⟩ | ⟨e, _⟩ <;>
      rcases final_plain (type := typeOf f.options) (ft := ft') hnd' with ⟨e', _⟩ | ⟨e', _⟩ <;> rw [e, e'] at hfin ⊢
    · exact N.tidy f hf hf' a h2 a' h2' _ U U' hfin
    · exact absurd ((List.prefix_append _ _).trans hfin) P.2.1
    · rcases List.prefix_or_prefix_of_prefix hfin (List.prefix_append "ipv6-".toList a.term.name) with h | h
      · exact absurd h P'.2.2
      · exact absurd h P'.2.1
    · rw [N.tidy f hf hf' a h2 a' h2' _ U U' ((List.prefix_append_right_inj _).1 hfin)]
  rcases rename_key (allSets_keys f) hcl hpre with ⟨e, hno⟩ | ⟨r, hr, e, e'⟩
  · rcases D4 _ hx with h | ⟨m, hm, hm'⟩
    · exact ⟨_, h, e, rfl, rfl, rfl⟩
    · exact absurd hm' (hno m hm)
  · obtain ⟨y, hy, k, hk, rfl, hk1, hk2⟩ := D3 r hr
    have hyx := sets_in_filter hd hy hx e
    subst hyx
    refine ⟨k, hk, e', hk1, hk2, ?_⟩
    rcases D2 k hk with h | h
    · cases h
    · obtain ⟨ft', _, a', _, _, d', h3'⟩ := mem_allSets.1 h
      have hfam' : k.family = afOf ft' := by obtain ⟨rfl, _⟩ := mem_fieldSetOf h3'; rfl
      have F := fieldSet_family h3
      have F' := fieldSet_family h3'
      rw [hk1, hk2] at F'
      have : ∃ z, z ∈ (minimizePrefixes (ofVersion (afOf ft) (addrsOf a d)) (ofVersion (afOf ft) (exclOf a d))).1.map pfx ++
          (minimizePrefixes (ofVersion (afOf ft) (addrsOf a d)) (ofVersion (afOf ft) (exclOf a d))).2.map pfx := by
        apply List.exists_mem_of_ne_nil
        intro e
        rw [List.append_eq_nil_iff] at e
        exact hne.elim (fun h => h e.1) (fun h => h e.2)
      obtain ⟨z, hz⟩ := this
      rw [hfam', ← F' z hz, F z hz]

/-! ### all filters -/

/-- The printed terms of a filter. -/
def itemsOf (f : Filter) : List Out :=
  (((pairs (typeOf f.options) f.terms).flatMap (preOf (typeOf f.options))).flatMap (textOf (useSetsOf f.options))).map
    (renameOut (renOf f))

theorem blocks_sets : ∀ {same first : Bool} {fs : List Filter} {bs : List Block}, renderFilters same first fs = .ok bs →
    (∀ k, k ∈ setsOf bs ↔ ∃ f ∈ fs, k ∈ (dedup [] (allSets f)).1) ∧ (∀ f ∈ fs, ∃ rm b, renderFilter rm f = .ok b) ∧
    ∀ b ∈ bs, ∃ f ∈ fs, ∃ rm, renderFilter rm f = .ok b
  | _, _, [], bs, h => by
    unfold renderFilters at h
    cases h
    simp [setsOf]
  | same, first, f :: fs, bs, h => by
    unfold renderFilters at h
    obtain ⟨b, h1, h⟩ := bind_ok h
    obtain ⟨cs, h2, h⟩ := bind_ok h
    cases h
    obtain ⟨i1, i2, i3⟩ := blocks_sets h2
    have hb := (filter_shape h1).2.2.1
    refine ⟨fun k => ?_, ?_, ?_⟩
    · unfold setsOf at i1 ⊢
      rw [List.flatMap_cons, List.mem_append, i1, hb]
      simp
    · intro g hg
      rcases List.mem_cons.1 hg with rfl | hg
      · exact ⟨_, _, h1⟩
      · exact i2 g hg
    · intro c hc
      rcases List.mem_cons.1 hc with rfl | hc
      · exact ⟨f, by simp, _, h1⟩
      · obtain ⟨g, hg, h⟩ := i3 c hc
        exact ⟨g, List.mem_cons_of_mem _ hg, h⟩

theorem entries_same {name : Option String} : ∀ {first : Bool} {fs : List Filter} {bs : List Block} {os : List Out},
    renderFilters true first fs = .ok bs → (first = true → os = []) →
    entriesOf name os bs = os ++ (fs.filter fun f => f.options.head? == name).flatMap itemsOf
  | _, [], bs, os, h, _ => by
    unfold renderFilters at h
    cases h
    simp [entriesOf]
  | first, f :: fs, bs, os, h, ho => by
    unfold renderFilters at h
    obtain ⟨b, h1, h⟩ := bind_ok h
    obtain ⟨cs, h2, h⟩ := bind_ok h
    cases h
    obtain ⟨_, _, _, hn, hr, hi, _⟩ := filter_shape h1
    rw [entriesOf, entries_same h2 (by simp), hn, hr]
    by_cases e : f.options.head? = name
    · rw [if_pos e, List.filter_cons_of_pos (by simpa using e), List.flatMap_cons, hi]
      cases first
      · simp [itemsOf]
      · simp [itemsOf, ho]
    · rw [if_neg e, List.filter_cons_of_neg (by simpa using e)]

theorem entries_distinct {name : Option String} : ∀ {first : Bool} {fs : List Filter} {bs : List Block} {os : List Out},
    renderFilters false first fs = .ok bs → (fs.map fun f => f.options.head?).Nodup →
    (os = [] ∨ name ∉ fs.map fun f => f.options.head?) →
    entriesOf name os bs = os ++ (fs.filter fun f => f.options.head? == name).flatMap itemsOf
  | _, [], bs, os, h, _, _ => by
    unfold renderFilters at h
    cases h
    simp [entriesOf]
  | first, f :: fs, bs, os, h, hd, ho => by
    unfold renderFilters at h
    obtain ⟨b, h1, h⟩ := bind_ok h
    obtain ⟨cs, h2, h⟩ := bind_ok h
    cases h
    obtain ⟨_, _, _, hn, hr, hi, _⟩ := filter_shape h1
    rw [List.map_cons, List.nodup_cons] at hd
    rw [entriesOf, hn, hr]
    by_cases e : f.options.head? = name
    · rw [if_pos e, List.filter_cons_of_pos (by simpa using e), List.flatMap_cons, hi, entries_distinct h2 hd.2 (.inr (e ▸ hd.1))]
      rcases ho with rfl | ho
      · simp [itemsOf]
      · exact absurd (by simp [e]) ho
    · rw [if_neg e, List.filter_cons_of_neg (by simpa using e), entries_distinct h2 hd.2]
      rcases ho with ho | ho
      · exact .inl ho
      · exact .inr fun h => ho (List.mem_cons_of_mem _ h)

/-- The filters are all for one policy, or all for different ones. -/
def OnePolicyEach (fs : List Filter) : Prop :=
  (∀ f ∈ fs, ∀ g ∈ fs, f.here = true → g.here = true → f.options.head? = g.options.head?) ∨
  ((fs.filter Filter.here).map fun f => f.options.head?).Nodup

theorem eraseDups_one {α : Type} [BEq α] [LawfulBEq α] {l : List α} {x : α} (h : ∀ y ∈ l, y = x) (hl : l ≠ []) : l.eraseDups = [x] := by
  have hn := PyStr.nodup_eraseDups l
  have hm : ∀ y ∈ l.eraseDups, y = x := fun y hy => h y (List.mem_eraseDups.1 hy)
  cases hd : l.eraseDups with
  | nil =>
    obtain ⟨y, hy⟩ := List.exists_mem_of_ne_nil _ hl
    rw [← List.mem_eraseDups, hd] at hy
    cases hy
  | cons a as =>
    rw [hd] at hn hm
    cases as with
    | nil => rw [hm a (by simp)]
    | cons b bs =>
      rw [List.nodup_cons] at hn
      exact absurd (by rw [hm a (by simp), hm b (by simp)]; simp) hn.1

theorem translate_entries {fs : List Filter} {bs : List Block} (h : AristaTp.translate fs = .ok bs) (hp : OnePolicyEach fs)
    (name : Option String) :
    entriesOf name [] bs = ((fs.filter Filter.here).filter fun f => f.options.head? == name).flatMap itemsOf := by
  unfold AristaTp.translate at h
  cases hs : allSame (fs.filter Filter.here) with
  | true =>
    rw [hs] at h
    rw [entries_same h (fun _ => rfl), List.nil_append]
  | false =>
    rw [hs] at h
    rw [entries_distinct h ?_ (.inl rfl), List.nil_append]
    rcases hp with hp | hp
    · cases hf : fs.filter Filter.here with
      | nil => simp
      | cons g gs =>
        exfalso
        unfold allSame at hs
        rw [eraseDups_one (x := g.options.head?)] at hs
        · cases hs
        · intro y hy
          obtain ⟨k, hk, rfl⟩ := List.mem_map.1 hy
          have hg : g ∈ fs.filter Filter.here := by rw [hf]; simp
          exact hp k (List.mem_filter.1 hk).1 g (List.mem_filter.1 hg).1 (List.mem_filter.1 hk).2 (List.mem_filter.1 hg).2
        · rw [hf]; simp
    · exact hp

/-! ### field sets -/

theorem set_needed {v : Ver} {us : Bool} {name : Str} {d : Dir} {inc exc : List Net} (hw : ∀ n ∈ inc ++ exc, WF n) (hc : Cuts v inc exc)
    (hi : ∃ n ∈ inc, n.ver = v) (hu : us = true ∨ ∃ e ∈ exc, e.ver = v) :
    (⟨setName d name, v, (minimizePrefixes (ofVersion v inc) (ofVersion v exc)).1.map pfx,
      (minimizePrefixes (ofVersion v inc) (ofVersion v exc)).2.map pfx⟩ : FieldSet) ∈ fieldSetOf us v name d inc exc := by
  have wi : ∀ n ∈ inc, WF n := fun n h => hw n (List.mem_append_left _ h)
  have we : ∀ n ∈ exc, WF n := fun n h => hw n (List.mem_append_right _ h)
  have wi' : ∀ n ∈ ofVersion v inc, WF n := fun n h => wi n (mem_ofVersion.1 h).1
  have we' : ∀ n ∈ ofVersion v exc, WF n := fun n h => we n (mem_ofVersion.1 h).1
  unfold fieldSetOf
  dsimp only
  rw [if_pos]
  · simp
  · simp only [Bool.and_eq_true, Bool.or_eq_true, Bool.not_eq_true', List.isEmpty_eq_false_iff]
    by_cases he : ∃ e ∈ exc, e.ver = v
    · obtain ⟨e, h1, h2, n, h3, h4, h5⟩ := hc hi he
      have hm : Mem e e.ver e.addr := by
        refine ⟨rfl, Nat.le_refl _, ?_⟩
        have := Nat.two_pow_pos (e.ver.bits - e.plen)
        omega
      have hnv : n.ver = v := by
        have := (h4 _ _ hm).1
        rw [this, h2]
      have : e ∈ (minimizePrefixes (ofVersion v inc) (ofVersion v exc)).2 := by
        rw [mem_minimize_snd wi' we']
        refine ⟨mem_ofVersion.2 ⟨h1, h2⟩, n, mem_ofVersion.2 ⟨h3, hnv⟩, fun f hf e => ?_, h4⟩
        exact h5 f (mem_ofVersion.1 hf).1 fun u x => mem_congr_block e u x
      exact ⟨.inr (List.ne_nil_of_mem this), .inl (List.ne_nil_of_mem this)⟩
    · have hus := hu.resolve_right he
      obtain ⟨n, h1, h2⟩ := hi
      have : n ∈ (minimizePrefixes (ofVersion v inc) (ofVersion v exc)).1 := by
        rw [mem_minimize_fst wi' we']
        exact ⟨mem_ofVersion.2 ⟨h1, h2⟩, fun e h => absurd ⟨e, mem_ofVersion.1 h⟩ he⟩
      exact ⟨.inl (List.ne_nil_of_mem this), .inr hus⟩

/-- The sets after loading. -/
structure Loaded (fs : List Filter) (sets : List FieldSet) : Prop where
  mem : ∀ k, k ∈ sets ↔ ∃ f ∈ fs, f.here = true ∧ k ∈ (dedup [] (allSets f)).1
  differ : ∀ f ∈ fs, f.here = true → NamesDiffer f

theorem loaded {fs : List Filter} {bs : List Block} (h : AristaTp.translate fs = .ok bs) : Loaded fs (setsOf bs) := by
  unfold AristaTp.translate at h
  obtain ⟨h1, h2, _⟩ := blocks_sets h
  refine ⟨fun k => ?_, fun f hf hh => ?_⟩
  · rw [h1]
    simp only [List.mem_filter, and_assoc]
  · obtain ⟨rm, b, hb⟩ := h2 f (List.mem_filter.2 ⟨hf, hh⟩)
    exact (filter_shape hb).1

theorem kept_set {fs : List Filter} {sets : List FieldSet} (N : AtpNames fs) (L : Loaded fs sets) {f : Filter} (hf : f ∈ fs)
    (hh : f.here = true) {x : FieldSet} (hx : x ∈ allSets f) :
    ∃ k ∈ sets, rename (renOf f) x.name = k.name ∧ k.pfxs = x.pfxs ∧ k.excepts = x.excepts ∧ k.family = x.family ∧
      ∀ j ∈ sets, j.name = k.name → j.family = k.family → j = k := by
  obtain ⟨k, hk, h1, h2, h3, h4⟩ := renamed_set N hf hh (L.differ f hf hh) hx
  refine ⟨k, (L.mem k).2 ⟨f, hf, hh, hk⟩, h1, h2, h3, h4, fun j hj e1 e2 => ?_⟩
  obtain ⟨g, hg, hgh, hj⟩ := (L.mem j).1 hj
  have hj' : j ∈ allSets g := ((dedup_spec (allSets g) []).2.1 j hj).resolve_left (by simp)
  have hk' : k ∈ allSets f := ((dedup_spec (allSets f) []).2.1 k hk).resolve_left (by simp)
  exact sets_across N hg hgh hf hh (L.differ g hg hgh) hj' hk' e1 e2

theorem atp_inset {fs : List Filter} {sets : List FieldSet} (N : AtpNames fs) (L : Loaded fs sets) {f : Filter} (hf : f ∈ fs)
    (hh : f.here = true) {ft : String} (hft : ft ∈ families (typeOf f.options)) {a : ATerm} (ha : a ∈ f.terms) {q : PTerm}
    (hq : AristaTp.prepare (typeOf f.options) ft a = .ok (some q)) {d : Dir} (hw : ∀ n ∈ addrsOf a d ++ exclOf a d, WF n)
    (hc : Cuts (afOf ft) (addrsOf a d) (exclOf a d)) (hn : ∀ n ∈ addrsOf a d, ∀ e ∈ exclOf a d, ¬ StrictSub n e)
    {p : Packet} (hv : p.ver = afOf ft) (hi : ∃ n ∈ addrsOf a d, n.ver = afOf ft)
    (hu : useSetsOf f.options = true ∨ ∃ e ∈ exclOf a d, e.ver = afOf ft) :
    InSet sets d p (rename (renOf f) (setName d (finalName (typeOf f.options) ft a.term.name))) ↔
      AddrMatch (addrsOf a d) (exclOf a d) (afOf ft) (Eos.addr d p) := by
  have hx := set_needed (name := finalName (typeOf f.options) ft a.term.name) (d := d) hw hc hi hu
  obtain ⟨k, hk, h1, h2, h3, h4, h5⟩ := kept_set N L hf hh (mem_allSets.2 ⟨ft, hft, a, ha, ⟨q, hq⟩, d, hx⟩)
  dsimp only at h1 h2 h3 h4
  have hcall : ∀ j, j ∈ called sets p.ver k.name ↔ j = k := by
    intro j
    unfold called
    rw [List.mem_filter, Bool.and_eq_true, beq_iff_eq, beq_iff_eq]
    constructor
    · rintro ⟨hj, e1, e2⟩
      exact h5 j hj e1 (by rw [e2, h4, hv])
    · rintro rfl
      exact ⟨hk, rfl, by rw [h4, hv]⟩
  have hne : called sets p.ver k.name ≠ [] := List.ne_nil_of_mem ((hcall k).2 rfl)
  have M := minimized_is (v := afOf ft) (inc := addrsOf a d) (exc := exclOf a d) (fun n h => hw n (List.mem_append_left _ h))
    (fun n h => hw n (List.mem_append_right _ h)) (by rintro e; rw [e] at hi; obtain ⟨_, h, _⟩ := hi; cases h) hn (Eos.addr d p)
  rw [← M, h1]
  unfold InSet
  simp only [hcall, hne, ne_eq, not_false_eq_true, true_and, false_and, or_false, exists_eq_left, forall_eq]
  rw [h2, h3, hv]

theorem atp_inlist {fs : List Filter} {sets : List FieldSet} (L : Loaded fs sets) (f : Filter) {s : Str} (hs : Clean s) {d : Dir}
    {p : Packet} : InSet sets d p (rename (renOf f) s) ↔ inList d p (String.ofList s) = true := by
  rw [rename_id (allSets_keys f) hs]
  have : called sets p.ver s = [] := by
    unfold called
    rw [List.filter_eq_nil_iff]
    intro k hk h
    rw [Bool.and_eq_true, beq_iff_eq] at h
    obtain ⟨g, _, _, hk⟩ := (L.mem k).1 hk
    obtain ⟨ft, _, a, _, _, d', h3⟩ := mem_allSets.1 (((dedup_spec (allSets g) []).2.1 k hk).resolve_left (by simp))
    obtain ⟨rfl, _⟩ := mem_fieldSetOf h3
    rw [← h.1] at hs
    rcases setName_keys d' (finalName (typeOf g.options) ft a.term.name) with h | h
    · exact hs.1 h.isInfix
    · exact hs.2 h.isInfix
  unfold InSet
  simp [this]

/-! ### the entries of a policy -/

/-- What is printed for a term of a filter. -/
def outs (f : Filter) (a : ATerm) : List Out :=
  (families (typeOf f.options)).flatMap fun ft =>
    ((preOf (typeOf f.options) (ft, a)).flatMap (textOf (useSetsOf f.options))).map (renameOut (renOf f))

theorem itemsOf_outs (f : Filter) : itemsOf f = f.terms.flatMap (outs f) := by
  unfold itemsOf outs pairs
  simp only [List.map_flatMap, List.flatMap_assoc, List.flatMap_map]

theorem mem_outs {f : Filter} {a : ATerm} {o : Out} (h : o ∈ outs f a) :
    ∃ ft ∈ families (typeOf f.options), ∃ q, AristaTp.prepare (typeOf f.options) ft a = .ok (some q) ∧
      ∃ x, AristaTp.render (useSetsOf f.options) q = .ok (some x) ∧ o = renameOut (renOf f) x := by
  unfold outs at h
  obtain ⟨ft, h1, h⟩ := List.mem_flatMap.1 h
  obtain ⟨x, h2, rfl⟩ := List.mem_map.1 h
  obtain ⟨q, h3, h4⟩ := List.mem_flatMap.1 h2
  exact ⟨ft, h1, q, mem_preOf.1 h3, x, mem_textOf.1 h4, rfl⟩

/-- The entry is for packets of the version. -/
def isFam (v : Ver) : Out → Bool
  | .entry _ w _ _ => w == v
  | .verbatim _ => false

theorem render_shape {us : Bool} {q : PTerm} {x : Out} (h : AristaTp.render us q = .ok (some x)) :
    (∃ ls, x = .verbatim ls) ∨ ∃ cs as, x = .entry q.item.term.name q.family cs as := by
  unfold AristaTp.render at h
  split at h
  · cases h
  · split at h
    · split at h <;> cases h
    · split at h
      · dsimp only at h
        split at h <;> cases h
        exact .inl ⟨_, rfl⟩
      · obtain ⟨o, _, h⟩ := bind_ok h
        split at h
        · cases h
        · right
          unfold printEntry at h
          dsimp only at h
          split at h
          · cases h
          · split at h
            · cases h
            · obtain ⟨_, _, h⟩ := bind_ok h
              obtain ⟨_, _, h⟩ := bind_ok h
              cases h
              exact ⟨_, _, rfl⟩

theorem clean_cons {c : Char} {cs : Str} (hs : c ≠ 's') (hd : c ≠ 'd') (h : Clean cs) : Clean (c :: cs) := by
  unfold Clean
  rw [List.infix_cons_iff, List.infix_cons_iff]
  refine ⟨fun h' => h'.elim (fun h' => ?_) h.1, fun h' => h'.elim (fun h' => ?_) h.2⟩
  · obtain ⟨t, e⟩ := h'
    exact hs (List.cons.inj e).1.symm
  · obtain ⟨t, e⟩ := h'
    exact hd (List.cons.inj e).1.symm

theorem final_clean {type ft : String} {a : ATerm} (h : Clean a.term.name) : Clean (finalName type ft a.term.name) := by
  unfold finalName
  split
  · have : ∀ v : Ver, Clean (afText v ++ "-default-all".toList) := by
      intro v
      unfold Clean
      cases v <;> simp [afText, List.infix_cons_iff]
    exact this _
  · split
    · exact clean_cons (by decide) (by decide) (clean_cons (by decide) (by decide) (clean_cons (by decide) (by decide)
        (clean_cons (by decide) (by decide) (clean_cons (by decide) (by decide) h))))
    · exact h

theorem last_final {type ft : String} {a : ATerm}
    (hp : ¬ "ipv4-".toList <+: a.term.name ∧ ¬ "ipv6-".toList <+: a.term.name) :
    (finalName type ft a.term.name == "ipv4-default-all".toList || finalName type ft a.term.name == "ipv6-default-all".toList) = true ↔
      NamedDefault a := by
  rw [Bool.or_eq_true, beq_iff_eq, beq_iff_eq]
  constructor
  · intro h
    by_cases hn : NamedDefault a
    · exact hn
    · rcases final_plain (type := type) (ft := ft) hn with ⟨e, _⟩ | ⟨e, _⟩ <;> rw [e] at h
      · rcases h with h | h
        · exact absurd (h ▸ ⟨"default-all".toList, rfl⟩) hp.1
        · exact absurd (h ▸ ⟨"default-all".toList, rfl⟩) hp.2
      · rcases h with h | h
        · have := congrArg (fun l => l.take 5) h
          simp at this
        · have := congrArg (fun l => l.drop 5) h
          have e : a.term.name = "default-all".toList := by simpa using this
          rw [show NamedDefault a ↔ ∃ n, a.term.name.map Char.toLower = "default-".toList ++ n from Iff.rfl, e]
          exact ⟨"all".toList, by decide⟩
  · intro h
    unfold finalName
    rw [if_pos (startsLower_iff.2 h)]
    have : ∀ v : Ver, afText v ++ "-default-all".toList = "ipv4-default-all".toList ∨
        afText v ++ "-default-all".toList = "ipv6-default-all".toList := by
      intro v; cases v <;> decide
    exact this _

/-- Which entries come last. -/
theorem outs_last {fs : List Filter} (N : AtpNames fs) {f : Filter} (hf : f ∈ fs) (hh : f.here = true) {a : ATerm} (ha : a ∈ f.terms)
    {o : Out} (ho : o ∈ outs f a) {v : Ver} (hv : isFam v o = true) : isLast o = true ↔ NamedDefault a := by
  obtain ⟨ft, h1, q, h2, x, h3, rfl⟩ := mem_outs ho
  obtain ⟨_, ports, rfl⟩ := prepare_shape h2
  rcases render_shape h3 with ⟨ls, rfl⟩ | ⟨cs, as, rfl⟩
  · cases hv
  · unfold renameOut isLast
    dsimp only
    rw [rename_id (allSets_keys f) (final_clean (N.clean f hf hh a ha).1)]
    have P := N.plain f hf hh a ha
    exact last_final ⟨P.1, P.2.1⟩

theorem outs_family {f : Filter} (hh : f.options.head? ≠ some "field_set") {a : ATerm} {o : Out} (ho : o ∈ outs f a) {v : Ver}
    (hv : isFam v o = true) : About f.options v := by
  obtain ⟨ft, h1, q, h2, x, h3, rfl⟩ := mem_outs ho
  rw [about_iff hh]
  refine ⟨ft, h1, (two_families h1 h2).1, ?_⟩
  obtain ⟨_, ports, rfl⟩ := prepare_shape h2
  rcases render_shape h3 with ⟨ls, rfl⟩ | ⟨cs, as, rfl⟩
  · cases hv
  · simpa [renameOut, isFam] using hv

theorem filter_inOrder (v : Ver) (os : List Out) : (inOrder os).filter (isFam v) = inOrder (os.filter (isFam v)) := by
  unfold inOrder
  rw [List.filter_append, List.filter_filter, List.filter_filter, List.filter_filter, List.filter_filter]
  simp only [Bool.and_comm]

theorem inOrder_blocks {T : Type} {g : T → List Out} {last : T → Prop} : ∀ {ts : List T}, (ts.Pairwise fun a _ => ¬ last a) →
    (∀ t ∈ ts, ∀ o ∈ g t, isLast o = true ↔ last t) → inOrder (ts.flatMap g) = ts.flatMap g
  | [], _, _ => rfl
  | t :: ts, hp, h => by
    rw [List.pairwise_cons] at hp
    have ih := inOrder_blocks (g := g) hp.2 fun u hu => h u (List.mem_cons_of_mem _ hu)
    rw [List.flatMap_cons]
    by_cases hl : last t
    · have : ts = [] := by
        cases ts with
        | nil => rfl
        | cons u us => exact absurd hl (hp.1 u (by simp))
      subst this
      have h1 : (g t).filter isLast = g t := List.filter_eq_self.2 fun o ho => (h t (by simp) o ho).2 hl
      have h2 : (g t).filter (fun o => !isLast o) = [] := by
        rw [List.filter_eq_nil_iff]
        intro o ho
        simp [(h t (by simp) o ho).2 hl]
      unfold inOrder
      simp [h1, h2]
    · have h0 : ∀ o ∈ g t, isLast o = false := by
        intro o ho
        rw [← Bool.not_eq_true]
        exact fun h' => hl ((h t (by simp) o ho).1 h')
      have h1 : (g t).filter isLast = [] := by
        rw [List.filter_eq_nil_iff]
        intro o ho
        simp [h0 o ho]
      have h2 : (g t).filter (fun o => !isLast o) = g t := List.filter_eq_self.2 fun o ho => by simp [h0 o ho]
      unfold inOrder at ih ⊢
      rw [List.filter_append, List.filter_append, h1, h2, List.nil_append, List.append_assoc, ih]

theorem flatMap_keep {α β : Type} {g : α → List β} {keep : α → Bool} : ∀ {l : List α}, (∀ x ∈ l, keep x = false → g x = []) →
    l.flatMap g = (l.filter keep).flatMap g
  | [], _ => rfl
  | x :: l, h => by
    have ih := flatMap_keep fun y hy => h y (List.mem_cons_of_mem _ hy)
    by_cases hk : keep x = true
    · rw [List.filter_cons_of_pos hk, List.flatMap_cons, List.flatMap_cons, ih]
    · rw [List.filter_cons_of_neg hk, List.flatMap_cons, h x (by simp) (by simpa using hk), List.nil_append, ih]

theorem eos_wants_unique {p : Packet} (a : ATerm) (b c : Bool) (h : Wants a p b) (h' : Wants a p c) : b = c := by
  obtain ⟨_, _, w, e, hw⟩ := h
  obtain ⟨_, _, w', e', hw'⟩ := h'
  rw [e] at e'
  cases e'
  exact permits_unique hw hw'

/-- What is printed for a term, for packets of one version. -/
theorem outs_does {fs : List Filter} {sets : List FieldSet} (N : AtpNames fs) (L : Loaded fs sets) {f : Filter} (hf : f ∈ fs)
    (hh : f.here = true) {rm : Bool} {blk : Block} (hb : renderFilter rm f = .ok blk) {a : ATerm} (ha : a ∈ f.terms) {p : Packet}
    (hp : Packets p) (hab : About f.options p.ver) (fits : Live a → AtpFits p.ver a) (b : Bool) :
    (∃ o ∈ (outs f a).filter (isFam p.ver), Does sets p o b) ↔ Wants a p b := by
  obtain ⟨ft, hft, hft2, hv⟩ := (about_iff (N.head f hf hh) _).1 hab
  obtain ⟨_, hok, _⟩ := filter_shape hb
  obtain ⟨r, hr, hr2⟩ := hok (ft, a) (mem_pairs.2 ⟨hft, ha⟩)
  dsimp only at hr
  have hft3 : (ft = "inet" ∧ p.ver = .v4) ∨ (ft = "inet6" ∧ p.ver = .v6) := by
    rw [← hv]
    rcases hft2 with rfl | rfl
    · exact .inl ⟨rfl, rfl⟩
    · exact .inr ⟨rfl, rfl⟩
  have T := atp_term (us := useSetsOf f.options) (sets := sets) (ren := renOf f) hft3 fits hr hp rfl
    (fun hl hne hi hu => by
      obtain ⟨q, rfl⟩ := Option.ne_none_iff_exists'.1 hne
      have F := fits hl
      rw [← hv] at F hi hu ⊢
      exact atp_inset N L hf hh hft ha hr (d := .source) F.src F.srcCuts F.srcNested hv.symm hi hu)
    (fun hl hne hi hu => by
      obtain ⟨q, rfl⟩ := Option.ne_none_iff_exists'.1 hne
      have F := fits hl
      rw [← hv] at F hi hu ⊢
      exact atp_inset N L hf hh hft ha hr (d := .destination) F.dst F.dstCuts F.dstNested hv.symm hi hu)
    (fun _ d s hs => by
      rw [atp_inlist L f ((N.clean f hf hh a ha).2 s hs), String.ofList_toList])
  constructor
  · rintro ⟨o, ho, hd⟩
    obtain ⟨ho, hfam⟩ := List.mem_filter.1 ho
    obtain ⟨ft', h1, q, h2, x, h3, rfl⟩ := mem_outs ho
    have hft' : ft' = ft := by
      apply afOf_inj (two_families h1 h2).1 hft2
      obtain ⟨_, ports, rfl⟩ := prepare_shape h2
      rcases render_shape h3 with ⟨ls, rfl⟩ | ⟨cs, as, rfl⟩
      · cases hfam
      · rw [hv]
        simpa [renameOut, isFam] using hfam
    subst hft'
    rw [hr] at h2
    cases h2
    exact ((T.2 q rfl _ h3).2 x rfl b).1 hd
  · intro hw
    cases r with
    | none => exact absurd hw (T.1 rfl b)
    | some q =>
      obtain ⟨o, ho⟩ := hr2 q rfl
      cases o with
      | none => exact absurd hw ((T.2 q rfl _ ho).1 rfl b)
      | some x =>
        have D := ((T.2 q rfl _ ho).2 x rfl b).2 hw
        refine ⟨_, List.mem_filter.2 ⟨?_, ?_⟩, D⟩
        · unfold outs
          exact List.mem_flatMap.2 ⟨ft, hft, List.mem_map.2 ⟨x, List.mem_flatMap.2 ⟨q, mem_preOf.2 hr, mem_textOf.2 ho⟩, rfl⟩⟩
        · obtain ⟨n, cs, as, e, _⟩ := D
          rw [e]
          simp [isFam]

/-- C122: the traffic policies that are printed decide about packets as the filters ask. -/
theorem C122_partial {fs : List Filter} {bs : List Block} (h : AristaTp.translate fs = .ok bs) (N : AtpNames fs)
    (hpol : OnePolicyEach fs) {p : Packet} (hp : Packets p)
    (fits : ∀ f ∈ fs, f.here = true → About f.options p.ver → ∀ a ∈ f.terms, Live a → AtpFits p.ver a)
    (name : Option String) (last : (termsOf name p.ver fs).Pairwise fun a _ => ¬ NamedDefault a) (accept : Bool) :
    Decides (setsOf bs) (entriesOf name [] bs) p accept ↔ PolicyDecides (termsOf name p.ver fs) p accept := by
  have L := loaded h
  have hblk := (blocks_sets h).2.1
  rw [translate_entries h hpol name]
  unfold Decides PolicyDecides
  rw [← Lemmas.first_filter (keep := isFam p.ver) (fun o _ ho w hw => by
    obtain ⟨n, cs, as, rfl, _⟩ := hw
    simp [isFam] at ho), filter_inOrder]
  let G := fs.filter fun f => f.here && f.options.head? == name && decide (About f.options p.ver)
  let Tv := G.flatMap fun f => f.terms.map fun a => (f, a)
  have hG : ∀ f ∈ G, f ∈ fs ∧ f.here = true ∧ About f.options p.ver := by
    intro f hf
    obtain ⟨h1, h2⟩ := List.mem_filter.1 hf
    simp only [Bool.and_eq_true, decide_eq_true_eq] at h2
    exact ⟨h1, h2.1.1, h2.2⟩
  have hTv : ∀ x ∈ Tv, x.1 ∈ G ∧ x.2 ∈ x.1.terms := by
    intro x hx
    obtain ⟨f, hf, hx⟩ := List.mem_flatMap.1 hx
    obtain ⟨a, ha, rfl⟩ := List.mem_map.1 hx
    exact ⟨hf, ha⟩
  have hterms : Tv.map Prod.snd = termsOf name p.ver fs := by
    show (G.flatMap fun f => f.terms.map fun a => (f, a)).map Prod.snd = G.flatMap Filter.terms
    rw [List.map_flatMap]
    congr 1
    funext f
    rw [List.map_map]
    exact List.map_id _
  have hent : ((((fs.filter Filter.here).filter fun f => f.options.head? == name).flatMap itemsOf).filter (isFam p.ver)) =
      Tv.flatMap fun x => (outs x.1 x.2).filter (isFam p.ver) := by
    rw [List.filter_flatMap, flatMap_keep (keep := fun f => decide (About f.options p.ver)), List.filter_filter, List.filter_filter]
    · show _ = (G.flatMap fun f => f.terms.map fun a => (f, a)).flatMap fun x => (outs x.1 x.2).filter (isFam p.ver)
      rw [List.flatMap_assoc]
      have : (fs.filter fun f => decide (About f.options p.ver) && (f.options.head? == name && f.here)) = G := by
        apply List.filter_congr
        intro f _
        cases f.here <;> cases f.options.head? == name <;> cases decide (About f.options p.ver) <;> rfl
      simp only [Bool.and_comm, Bool.and_assoc] at this ⊢
      rw [this]
      congr 1
      funext f
      rw [itemsOf_outs, List.filter_flatMap, List.flatMap_map]
    · intro f hf hk
      rw [List.filter_eq_nil_iff]
      intro o ho hfam
      have hf1 := (List.mem_filter.1 hf).1
      rw [itemsOf_outs] at ho
      obtain ⟨a, _, ho⟩ := List.mem_flatMap.1 ho
      have := outs_family (N.head f (List.mem_filter.1 hf1).1 (List.mem_filter.1 hf1).2) ho hfam
      simp [this] at hk
  rw [hent, inOrder_blocks (last := fun x => NamedDefault x.2), ← hterms]
  · have B := Lemmas.first_blocks (hit := fun o c => Does (setsOf bs) p o c) (want := fun a c => Wants a p c) (v := accept)
      (fun a b c => eos_wants_unique a b c) (ts := Tv.map fun x => (x.2, (outs x.1 x.2).filter (isFam p.ver))) (by
        intro t ht w
        obtain ⟨x, hx, rfl⟩ := List.mem_map.1 ht
        obtain ⟨h1, h2⟩ := hTv x hx
        obtain ⟨g1, g2, g3⟩ := hG _ h1
        obtain ⟨rm, blk, hb⟩ := hblk x.1 (List.mem_filter.2 ⟨g1, g2⟩)
        exact outs_does N L g1 g2 hb h2 hp g3 (fits x.1 g1 g2 g3 x.2 h2) w)
    rw [List.flatMap_map, List.map_map] at B
    exact B
  · rw [← hterms, List.pairwise_map] at last
    exact last
  · intro x hx o ho
    obtain ⟨h1, h2⟩ := hTv x hx
    obtain ⟨g1, g2, _⟩ := hG _ h1
    obtain ⟨ho, hfam⟩ := List.mem_filter.1 ho
    exact outs_last N g1 g2 h2 ho hfam

/-! ### what entries refer to -/

theorem addrCond_sets {v : Ver} {us : Bool} {name : Str} {d e : Dir} {inc exc : List Net} {cs : List Cond}
    (h : addrCond v us name d inc exc = some cs) {names : List Str} (hc : Cond.fieldSet e names ∈ cs) :
    e = d ∧ names = [setName d name] ∧ (∃ n ∈ inc, n.ver = v) ∧ (us = true ∨ ∃ x ∈ exc, x.ver = v) := by
  unfold addrCond at h
  split at h
  · split at h <;> cases h
    cases hc
  next hi =>
    split at h
    next hu =>
      cases h
      rw [List.mem_singleton] at hc
      cases hc
      refine ⟨rfl, rfl, ?_, ?_⟩
      · obtain ⟨n, hn⟩ := List.exists_mem_of_ne_nil _ (by simpa using hi)
        exact ⟨n, mem_ofVersion.1 hn⟩
      · rw [Bool.or_eq_true] at hu
        rcases hu with h | h
        · right
          obtain ⟨n, hn⟩ := List.exists_mem_of_ne_nil (ofVersion v exc) (by simpa using h)
          exact ⟨n, mem_ofVersion.1 hn⟩
        · exact .inl h
    · cases h
      rw [List.mem_singleton] at hc
      cases hc

theorem rest_sets {t : Term} {misc : List String} {d : Dir} {names : List Str} : Cond.fieldSet d names ∉ restConds t misc := by
  unfold restConds spanCond
  simp only [List.mem_append, List.mem_map, not_or]
  refine ⟨?_, ?_, ?_, ?_, by simp⟩ <;> split <;> simp

theorem entry_sets {us : Bool} {q : PTerm} {n : Str} {v : Ver} {cs : List Cond} {as : List Act}
    (h : AristaTp.render us q = .ok (some (.entry n v cs as))) {d : Dir} {names : List Str} (hc : Cond.fieldSet d names ∈ cs) :
    (names = [setName d q.item.term.name] ∧ (∃ n ∈ addrsOf q.item d, n.ver = q.family) ∧
      (us = true ∨ ∃ x ∈ exclOf q.item d, x.ver = q.family)) ∨
    names = q.item.term.sourcePrefix.map String.toList ∨ names = q.item.term.destinationPrefix.map String.toList := by
  unfold AristaTp.render at h
  split at h
  · cases h
  · split at h
    · split at h <;> cases h
    · split at h
      · dsimp only at h
        split at h <;> cases h
      · obtain ⟨o, _, h⟩ := bind_ok h
        split at h
        · cases h
        · unfold printEntry at h
          dsimp only at h
          split at h
          · cases h
          next s hs =>
            split at h
            · cases h
            next e he =>
              obtain ⟨pc, hpc, h⟩ := bind_ok h
              obtain ⟨_, _, h⟩ := bind_ok h
              cases h
              simp only [List.mem_append] at hc
              rcases hc with hc | hc | hc | hc | hc | hc
              · obtain ⟨rfl, h1, h2, h3⟩ := addrCond_sets hs hc
                exact .inl ⟨h1, h2, h3⟩
              · obtain ⟨rfl, h1, h2, h3⟩ := addrCond_sets he hc
                exact .inl ⟨h1, h2, h3⟩
              · unfold listCond at hc
                split at hc
                · cases hc
                · rw [List.mem_singleton] at hc
                  cases hc
                  exact .inr (.inl rfl)
              · unfold listCond at hc
                split at hc
                · cases hc
                · rw [List.mem_singleton] at hc
                  cases hc
                  exact .inr (.inr rfl)
              · unfold protoCond at hpc
                obtain ⟨_, _, hpc⟩ := bind_ok hpc
                obtain ⟨_, _, hpc⟩ := bind_ok hpc
                dsimp only at hpc
                split at hpc <;> cases hpc <;> simp at hc
              · exact absurd hc rest_sets

theorem mem_items {f : Filter} {o : Out} (h : o ∈ itemsOf f) : ∃ a ∈ f.terms, o ∈ outs f a := by
  rw [itemsOf_outs] at h
  exact List.mem_flatMap.1 h

theorem translate_blocks {fs : List Filter} {bs : List Block} (h : AristaTp.translate fs = .ok bs) {b : Block} (hb : b ∈ bs) :
    ∃ f ∈ fs, f.here = true ∧ b.items = itemsOf f ∧ ∃ rm, renderFilter rm f = .ok b := by
  unfold AristaTp.translate at h
  obtain ⟨f, hf, rm, hr⟩ := (blocks_sets h).2.2 b hb
  exact ⟨f, (List.mem_filter.1 hf).1, (List.mem_filter.1 hf).2, (filter_shape hr).2.2.2.2.2.1, rm, hr⟩

/-- C123: the field sets an entry names are in the output, or are prefix lists that a term names. -/
theorem C123_partial {fs : List Filter} {bs : List Block} (h : AristaTp.translate fs = .ok bs) (N : AtpNames fs)
    (cuts : ∀ f ∈ fs, f.here = true → ∀ a ∈ f.terms, ∀ v, Cuts v a.term.sourceAddress a.term.sourceAddressExclude ∧
      Cuts v a.term.destinationAddress a.term.destinationAddressExclude)
    (wf : ∀ f ∈ fs, f.here = true → ∀ a ∈ f.terms, (∀ n ∈ a.term.sourceAddress ++ a.term.sourceAddressExclude, WF n) ∧
      ∀ n ∈ a.term.destinationAddress ++ a.term.destinationAddressExclude, WF n)
    {b : Block} (hb : b ∈ bs) {n : Str} {v : Ver} {cs : List Cond} {as : List Act} (ho : Out.entry n v cs as ∈ b.items)
    {d : Dir} {names : List Str} (hc : Cond.fieldSet d names ∈ cs) {s : Str} (hs : s ∈ names) :
    (∃ k ∈ setsOf bs, k.name = s ∧ k.family = v) ∨
    ∃ f ∈ fs, ∃ a ∈ f.terms, ∃ l ∈ a.term.sourcePrefix ++ a.term.destinationPrefix, s = l.toList := by
  obtain ⟨f, hf, hh, hi, _⟩ := translate_blocks h hb
  rw [hi] at ho
  obtain ⟨a, ha, ho⟩ := mem_items ho
  obtain ⟨ft, hft, q, hq, x, hx, e⟩ := mem_outs ho
  have hq' := hq
  obtain ⟨_, ports, rfl⟩ := prepare_shape hq
  rcases render_shape hx with ⟨ls, rfl⟩ | ⟨cs', as', rfl⟩
  · cases e
  · unfold renameOut at e
    cases e
    obtain ⟨c', hc', e⟩ := List.mem_map.1 hc
    have : ∃ ns, c' = .fieldSet d ns ∧ names = ns.map (rename (renOf f)) := by
      cases c' <;> simp [renameCond] at e
      exact ⟨_, by rw [e.1], e.2.symm⟩
    obtain ⟨ns, rfl, rfl⟩ := this
    obtain ⟨s', hs', rfl⟩ := List.mem_map.1 hs
    rcases entry_sets hx hc' with ⟨rfl, h1, h2⟩ | h1
    · rw [List.mem_singleton] at hs'
      subst hs'
      left
      have hset := set_needed (us := useSetsOf f.options) (v := afOf ft) (d := d) (inc := addrsOf a d) (exc := exclOf a d)
        (name := finalName (typeOf f.options) ft a.term.name)
        (by cases d; exact (wf f hf hh a ha).1; exact (wf f hf hh a ha).2)
        (by cases d; exact (cuts f hf hh a ha _).1; exact (cuts f hf hh a ha _).2)
        (by cases d <;> exact h1) (by cases d <;> exact h2)
      obtain ⟨k, hk, e1, _, _, e4, _⟩ := kept_set N (loaded h) hf hh (mem_allSets.2 ⟨ft, hft, a, ha, ⟨_, hq'⟩, d, hset⟩)
      exact ⟨k, hk, e1.symm, e4⟩
    · right
      have : ∃ l ∈ a.term.sourcePrefix ++ a.term.destinationPrefix, s' = l.toList := by
        rcases h1 with rfl | rfl
        · obtain ⟨l, hl, rfl⟩ := List.mem_map.1 hs'
          exact ⟨l, List.mem_append_left _ hl, rfl⟩
        · obtain ⟨l, hl, rfl⟩ := List.mem_map.1 hs'
          exact ⟨l, List.mem_append_right _ hl, rfl⟩
      obtain ⟨l, hl, rfl⟩ := this
      exact ⟨f, hf, a, ha, l, hl, rename_id (allSets_keys f) ((N.clean f hf hh a ha).2 l hl)⟩

/-- The name of an entry. -/
def entryName : Out → Option Str
  | .entry n _ _ _ => some n
  | .verbatim _ => none

theorem actions_count {a : ATerm} {as : List Act} (h : AristaTp.actions a = .ok as) {c : Str} (hc : Act.count c ∈ as) :
    a.counter ≠ "" ∧ c = counterName a.counter := by
  unfold AristaTp.actions at h
  split at h
  · cases h
  · obtain ⟨ds, h1, h⟩ := bind_ok h
    obtain ⟨is, h2, h⟩ := bind_ok h
    cases h
    simp only [List.mem_append] at hc
    rcases hc with hc | hc | hc | hc | hc | hc | hc
    · split at hc <;> simp at hc
    · split at hc <;> simp at hc
    · split at hc
      · cases hc
      next hne =>
        rw [List.mem_singleton] at hc
        cases hc
        exact ⟨hne, rfl⟩
    · unfold AristaTp.dscpAct at h1
      split at h1
      · cases h1; cases hc
      · split at h1
        · cases h1; simp at hc
        · cases h1
    · split at hc <;> simp at hc
    · split at hc <;> simp at hc
    · unfold AristaTp.interfaceAct at h2
      split at h2
      · cases h2; cases hc
      · split at h2
        · cases h2; simp at hc
        · cases h2

theorem entry_actions {us : Bool} {q : PTerm} {n : Str} {v : Ver} {cs : List Cond} {as : List Act}
    (h : AristaTp.render us q = .ok (some (.entry n v cs as))) : AristaTp.actions q.item = .ok as := by
  unfold AristaTp.render at h
  split at h
  · cases h
  · split at h
    · split at h <;> cases h
    · split at h
      · dsimp only at h
        split at h <;> cases h
      · obtain ⟨o, _, h⟩ := bind_ok h
        split at h
        · cases h
        · unfold printEntry at h
          dsimp only at h
          split at h
          · cases h
          · split at h
            · cases h
            · obtain ⟨_, _, h⟩ := bind_ok h
              obtain ⟨_, ha, h⟩ := bind_ok h
              cases h
              exact ha

/-- C124: the counters an entry counts with are declared in its policy; their names have no dot; the entries of a filter have
different names. -/
theorem C124_partial {fs : List Filter} {bs : List Block} (h : AristaTp.translate fs = .ok bs)
    (clean : ∀ f ∈ fs, f.here = true → ∀ a ∈ f.terms, Clean a.term.name ∧
      Clean (a.counter.toList.map fun c => if c = '.' then '-' else c))
    {b : Block} (hb : b ∈ bs) :
    (∀ n v cs as c, Out.entry n v cs as ∈ b.items → Act.count c ∈ as → c ∈ b.counters) ∧
    (∀ c ∈ b.counters, '.' ∉ c) ∧ (b.items.filterMap entryName).Nodup := by
  obtain ⟨f, hf, hh, hi, rm, hr⟩ := translate_blocks h hb
  obtain ⟨hd, _, _, _, _, _, hcnt⟩ := filter_shape hr
  refine ⟨?_, ?_, ?_⟩
  · intro n v cs as c ho hc
    rw [hi] at ho
    obtain ⟨a, ha, ho⟩ := mem_items ho
    obtain ⟨ft, hft, q, hq, x, hx, e⟩ := mem_outs ho
    rcases render_shape hx with ⟨ls, rfl⟩ | ⟨cs', as', rfl⟩
    · cases e
    · unfold renameOut at e
      cases e
      obtain ⟨y, hy, e⟩ := List.mem_map.1 hc
      have : ∃ c', y = .count c' ∧ c = rename (renOf f) c' := by
        cases y <;> simp [renameAct] at e
        exact ⟨_, rfl, e.symm⟩
      obtain ⟨c', rfl, rfl⟩ := this
      obtain ⟨h1, rfl⟩ := actions_count (entry_actions hx) hy
      have hqc : q.item.counter = a.counter := by
        obtain ⟨_, ports, rfl⟩ := prepare_shape hq
        rfl
      rw [hqc] at h1 ⊢
      rw [rename_id (allSets_keys f) (show Clean (counterName a.counter) from (clean f hf hh a ha).2), hcnt]
      exact ⟨q, mem_pre.2 ⟨ft, hft, a, ha, hq⟩, by rw [hqc]; exact h1, by rw [hqc]⟩
  · intro c hc hdot
    obtain ⟨q, _, _, rfl⟩ := (hcnt c).1 hc
    unfold counterName at hdot
    obtain ⟨x, _, e⟩ := List.mem_map.1 hdot
    split at e
    · cases e
    next hne => exact hne e
  · rw [hi]
    have hsub : ((itemsOf f).filterMap entryName).Sublist
        ((pairs (typeOf f.options) f.terms).map fun x => finalName (typeOf f.options) x.1 x.2.term.name) := by
      have step : ∀ {l : List (String × ATerm)}, (∀ x ∈ l, x.2 ∈ f.terms) →
          ((((l.flatMap (preOf (typeOf f.options))).flatMap (textOf (useSetsOf f.options))).map (renameOut (renOf f))).filterMap
            entryName).Sublist (l.map fun x => finalName (typeOf f.options) x.1 x.2.term.name) := by
        intro l
        induction l with
        | nil => intro _; exact List.Sublist.slnil
        | cons x l ih =>
          intro hl
          have ih := ih fun y hy => hl y (List.mem_cons_of_mem _ hy)
          rw [List.flatMap_cons, List.flatMap_append, List.map_append, List.filterMap_append, List.map_cons]
          have hx : (((preOf (typeOf f.options) x).flatMap (textOf (useSetsOf f.options))).map (renameOut (renOf f))).filterMap
              entryName = [] ∨ (((preOf (typeOf f.options) x).flatMap (textOf (useSetsOf f.options))).map
                (renameOut (renOf f))).filterMap entryName = [finalName (typeOf f.options) x.1 x.2.term.name] := by
            cases hp : AristaTp.prepare (typeOf f.options) x.1 x.2 with
            | error e => left; simp [preOf, hp]
            | ok r =>
              cases r with
              | none => left; simp [preOf, hp]
              | some q =>
                cases ht : AristaTp.render (useSetsOf f.options) q with
                | error e => left; simp [preOf, hp, textOf, ht]
                | ok o =>
                  cases o with
                  | none => left; simp [preOf, hp, textOf, ht]
                  | some y =>
                    have hname : q.item.term.name = finalName (typeOf f.options) x.1 x.2.term.name := by
                      obtain ⟨_, ports, rfl⟩ := prepare_shape hp
                      rfl
                    rcases render_shape ht with ⟨ls, rfl⟩ | ⟨cs', as', rfl⟩
                    · left; simp [preOf, hp, textOf, ht, renameOut, entryName]
                    · right
                      simp only [preOf, hp, textOf, ht, Option.toList, List.flatMap_cons, List.flatMap_nil, List.append_nil,
                        List.map_cons, List.map_nil, renameOut, List.filterMap_cons, List.filterMap_nil, entryName, hname]
                      rw [rename_id (allSets_keys f) (final_clean (clean f hf hh x.2 (hl x (by simp))).1)]
          rcases hx with e | e <;> rw [e]
          · exact ih.cons _
          · exact ih.cons_cons _
      exact step fun x hx => (mem_pairs.1 hx).2
    exact hd.sublist hsub

/-- C125: loading the output gives a policy the same entries whatever entries it had before. -/
theorem C125_replaces {fs : List Filter} {bs : List Block} (h : AristaTp.translate fs = .ok bs) {f : Filter} (hf : f ∈ fs)
    (hh : f.here = true) (before : List Out) :
    entriesOf f.options.head? before bs = entriesOf f.options.head? [] bs := by
  unfold AristaTp.translate at h
  have hm : f ∈ fs.filter Filter.here := List.mem_filter.2 ⟨hf, hh⟩
  generalize hfs : fs.filter Filter.here = gs at h hm
  cases gs with
  | nil => cases hm
  | cons g gs =>
    have key : ∀ {same first : Bool} {gs : List Filter} {bs : List Block}, renderFilters same first gs = .ok bs → f ∈ gs →
        same = false → entriesOf f.options.head? before bs = entriesOf f.options.head? [] bs := by
      intro same first gs
      induction gs generalizing first with
      | nil => intro bs _ hm; cases hm
      | cons g gs ih =>
        intro bs h hm hs
        unfold renderFilters at h
        obtain ⟨b, h1, h⟩ := bind_ok h
        obtain ⟨cs, h2, h⟩ := bind_ok h
        cases h
        obtain ⟨_, _, _, hn, hr, _⟩ := filter_shape h1
        rw [entriesOf, entriesOf, hn, hr]
        by_cases e : g.options.head? = f.options.head?
        · rw [if_pos e, if_pos e, hs]
          simp
        · rw [if_neg e, if_neg e]
          rcases List.mem_cons.1 hm with rfl | hm
          · exact absurd rfl e
          · exact ih h2 hm hs
    cases hs : allSame (g :: gs) with
    | false => exact key h hm hs
    | true =>
      have e : g.options.head? = f.options.head? := by
        unfold allSame at hs
        rw [beq_iff_eq] at hs
        obtain ⟨x, hx⟩ := List.length_eq_one_iff.1 hs
        have hall : ∀ y ∈ (g :: gs).map fun f => f.options.head?, y = x := by
          intro y hy
          rw [← List.mem_eraseDups, hx] at hy
          simpa using hy
        rw [hall _ (List.mem_map.2 ⟨g, by simp, rfl⟩), hall _ (List.mem_map.2 ⟨f, hm, rfl⟩)]
      unfold renderFilters at h
      obtain ⟨b, h1, h⟩ := bind_ok h
      obtain ⟨cs, h2, h⟩ := bind_ok h
      cases h
      obtain ⟨_, _, _, hn, hr, _⟩ := filter_shape h1
      rw [entriesOf, entriesOf, hn, hr, if_pos e, if_pos e]
      simp

/-- C126: there is a block for each filter, and a policy gets the entries of all its blocks, in their order. -/
theorem C126_partial {fs : List Filter} {bs : List Block} (h : AristaTp.translate fs = .ok bs) (hp : OnePolicyEach fs) :
    (bs.map Block.name = (fs.filter Filter.here).map fun f => f.options.head?) ∧
    ∀ name, entriesOf name [] bs = (bs.filter fun b => b.name == name).flatMap Block.items := by
  have hent := translate_entries h hp
  unfold AristaTp.translate at h
  generalize fs.filter Filter.here = gs at h hent
  generalize allSame gs = same at h
  generalize true = first at h
  have key : (bs.map Block.name = gs.map fun f => f.options.head?) ∧
      ∀ name, (gs.filter fun f => f.options.head? == name).flatMap itemsOf = (bs.filter fun b => b.name == name).flatMap Block.items := by
    clear hent hp
    induction gs generalizing first bs with
    | nil => unfold renderFilters at h; cases h; exact ⟨rfl, fun _ => rfl⟩
    | cons g gs ih =>
      unfold renderFilters at h
      obtain ⟨b, h1, h⟩ := bind_ok h
      obtain ⟨cs, h2, h⟩ := bind_ok h
      cases h
      obtain ⟨_, _, _, hn, _, hi, _⟩ := filter_shape h1
      obtain ⟨i1, i2⟩ := ih _ h2
      refine ⟨by rw [List.map_cons, List.map_cons, hn, i1], fun name => ?_⟩
      by_cases e : g.options.head? = name
      · rw [List.filter_cons_of_pos (by simpa using e), List.filter_cons_of_pos (by rw [hn]; simpa using e), List.flatMap_cons,
          List.flatMap_cons, i2, hi]
        rfl
      · rw [List.filter_cons_of_neg (by simpa using e), List.filter_cons_of_neg (by rw [hn]; simpa using e), i2]
  exact ⟨key.1, fun name => (hent name).trans (key.2 name)⟩

end Verif.Props
