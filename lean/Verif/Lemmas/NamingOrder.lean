import Verif.Lemmas.NamingMore
import Verif.Lemmas.Parents

/-!
Lemmas for C183: what the loader does does not depend on the order of files that each start with
their own definition.
-/

namespace Verif
namespace Naming
open Verif.PyStr Verif.Spec

/-- Every unseen token is an uncommented value of some definition, and not defined. -/
def Justified (ty : DefType) (st : State) : Prop :=
  ∀ u ∈ st.unseen ty, u ∉ keys (st.defs ty) ∧ '#' ∉ u ∧ alphaHead u = true ∧ ':' ∉ u ∧
    ∃ e ∈ st.defs ty, u ∈ e.2

/-- Values go to an entry of the dictionary, if anywhere. -/
def Placed (ty : DefType) (st : State) : Prop :=
  st.current = [] ∨ ∃ k, st.unit = some (ty, k) ∧ k ∈ keys (st.defs ty)

theorem startDef_justified {ty : DefType} {st st' : State} {n vals : Str} (h : Justified ty st)
    (hs : startDef ty st n vals = .ok st') : Justified ty st' ∧ Placed ty st' := by
  obtain ⟨_, h1, _, h2, _, _, h5⟩ := startDef_ok hs
  refine ⟨?_, .inr ⟨n, h5, by rw [h1]; simp [keys]⟩⟩
  intro u hu
  rw [h2] at hu
  obtain ⟨hu, hn⟩ := List.mem_filter.1 hu
  obtain ⟨a, b, c, d, e, he, hue⟩ := h u hu
  rw [h1]
  refine ⟨?_, b, c, d, e, List.mem_append_left _ he, hue⟩
  simp only [keys, List.map_append, List.map_cons, List.map_nil, List.mem_append, List.mem_singleton, not_or]
  exact ⟨a, by simpa using hn⟩

theorem append_placed {ty : DefType} {st : State} {k : Str} (hu : st.unit = some (ty, k)) (x : Str) :
    (st.append x).defs ty = appendItem (st.defs ty) k x := by
  unfold State.append
  rw [hu]
  cases ty <;> rfl

theorem append_justified {ty : DefType} {st : State} {k : Str} (h : Justified ty st)
    (hu : st.unit = some (ty, k)) (x : Str) : Justified ty (st.append x) := by
  intro u hun
  rw [(append_rest st x ty).1] at hun
  obtain ⟨a, b, c, d, e, he, hue⟩ := h u hun
  rw [append_placed hu, keys_appendItem]
  refine ⟨a, b, c, d, ?_⟩
  refine ⟨_, List.mem_map.2 ⟨e, he, rfl⟩, ?_⟩
  split
  · exact List.mem_append_left _ hue
  · exact hue

theorem addValue_justified {ty : DefType} {c v : Str} {st : State} (hw : Word v)
    (h : Justified ty st ∧ Placed ty st) :
    Justified ty (addValue ty c st v) ∧ Placed ty (addValue ty c st v) := by
  obtain ⟨hj, hp⟩ := h
  unfold addValue
  split
  · exact ⟨hj, hp⟩
  next hc =>
    rcases hp with hp | ⟨k, hu, hk⟩
    · rw [hp] at hc; exact absurd rfl hc
    have hp' : ∀ x, Placed ty (st.append x) := fun x =>
      .inr ⟨k, by rw [(append_rest st x ty).2.2]; exact hu, by rw [append_placed hu, keys_appendItem]; exact hk⟩
    split
    · exact ⟨append_justified hj hu _, hp' _⟩
    · dsimp only
      split
      next hcond =>
        simp only [Bool.and_eq_true, Bool.not_eq_true'] at hcond
        obtain ⟨⟨⟨c1, c2⟩, c3⟩, c4⟩ := hcond
        refine ⟨?_, ?_⟩
        · intro u hun
          rw [setUnseen_unseen] at hun
          rw [setUnseen_defs]
          rcases List.mem_append.1 hun with hun | hun
          · exact append_justified hj hu v u hun
          · rw [List.mem_singleton] at hun
            subst hun
            refine ⟨?_, fun hh => (hw.2 _ hh).2 rfl, c1, by simpa using c2, ?_⟩
            · rw [← lookup_isSome, Bool.not_eq_true]
              rw [← Option.not_isSome, Bool.not_eq_true'] at c3
              exact c3
            · rw [append_placed hu]
              obtain ⟨e, he, rfl⟩ := List.mem_map.1 hk
              refine ⟨_, List.mem_map.2 ⟨e, he, rfl⟩, ?_⟩
              rw [if_pos (by simp)]
              simp
        · rcases hp' v with hh | ⟨k', a, b⟩
          · refine .inl ?_
            cases ty <;> exact hh
          · refine .inr ⟨k', ?_, ?_⟩
            · cases ty <;> exact a
            · rw [setUnseen_defs]; exact b
      next => exact ⟨append_justified hj hu _, hp' _⟩

theorem parseLines_justified {ty : DefType} {ls : List Str} {st st' : State}
    (h : parseLines ty st ls = .ok st') (he : Justified ty st ∧ Placed ty st) : Justified ty st' ∧ Placed ty st' :=
  parseLines_induct (P := fun st => Justified ty st ∧ Placed ty st)
    (fun _ _ _ _ hp hs => startDef_justified hp.1 hs) (fun _ _ _ hw hp => addValue_justified hw hp) h he

theorem parseLine_start {ty : DefType} {st st' : State} {l s : Str} {n vs c} (ha : Around l s)
    (hk : IsLine s (.define n vs c)) (h : parseLine ty st l = .ok st') (hj : Justified ty st) :
    Justified ty st' ∧ Placed ty st' := by
  obtain ⟨a, b, ha, hb, rfl, hlast⟩ := ha
  unfold parseLine at h
  cases hk with
  | @define _ sp body tail _ _ hn hsp hv ht =>
    obtain ⟨x, xs, hx, hx1, hx2⟩ := word_head hn.1
    rw [strip_around ha hb (by intro y hy; rw [hx] at hy; simp at hy; subst hy; exact hx1) hlast] at h
    have hne : ¬ (((n ++ (sp ++ '=' :: (body ++ tail))).isEmpty ||
        (n ++ (sp ++ '=' :: (body ++ tail))).head? == some '#') = true) := by
      rw [hx]; simp [hx2]
    rw [if_neg hne] at h
    have hpre : '#' ∉ n ++ (sp ++ '=' :: body) := by
      simp only [List.mem_append, List.mem_cons, not_or]
      exact ⟨fun hh => (hn.1.2 _ hh).2 rfl, blank_noHash hsp, by decide, vals_noHash hv⟩
    have hassoc : n ++ (sp ++ '=' :: (body ++ tail)) = (n ++ (sp ++ '=' :: body)) ++ tail := by simp
    obtain ⟨t1, t2⟩ := tail_noHash hpre ht
    rw [hassoc] at h
    dsimp only at h
    rw [t1, t2] at h
    have hsplit : splitOn '=' (n ++ (sp ++ '=' :: body)) = [n ++ sp, body] := by
      rw [← List.append_assoc, splitOn_app (by simp [hn.2, blank_noEq hsp]), splitOn_none (vals_noEq hv)]
    rw [hsplit] at h
    simp only at h
    cases hs : startDef ty st (strip (n ++ sp)) body with
    | error e => rw [hs] at h; cases h
    | ok s1 =>
      rw [hs] at h
      have hfold : ∀ (vs : List Str) (st : State), (∀ v ∈ vs, Word v) → Justified ty st ∧ Placed ty st →
          Justified ty (vs.foldl (addValue ty c) st) ∧ Placed ty (vs.foldl (addValue ty c) st) := by
        intro vs
        induction vs with
        | nil => intro st _ h; exact h
        | cons v vs ih =>
          intro st hw h
          exact ih _ (fun v hv => hw v (List.mem_cons_of_mem _ hv))
            (addValue_justified (hw v (List.mem_cons_self ..)) h)
      have e : (words body).foldl (addValue ty c) s1 = st' := by injection h
      rw [← e]
      refine hfold _ _ ?_ (startDef_justified hj hs)
      intro v hv'
      obtain ⟨w1, w2, w3⟩ := words_mem hv'
      exact ⟨w1, fun x hx => ⟨w2 x hx, fun hh => vals_noHash hv (hh ▸ w3 x hx)⟩⟩

theorem parseLines_start {ty : DefType} : ∀ {ls : List Str} {ks : List Line} {st st' : State},
    IsFile ls ks → StartsDef ks → parseLines ty st ls = .ok st' → Justified ty st → Justified ty st'
  | _, _, _, _, .nil, _, h, hj => by cases h; exact hj
  | l :: ls, k :: ks, st, st', .cons ha hk hf, hs, h, hj => by
    rw [parseLines] at h
    cases hl : parseLine ty st l with
    | error e => rw [hl] at h; cases h
    | ok st1 =>
      rw [hl] at h
      cases k with
      | blank =>
        rw [parseLine_blank ha hk] at hl
        cases hl
        exact parseLines_start hf hs h hj
      | cont => exact hs.elim
      | define n vs c => exact (parseLines_justified h (parseLine_start ha hk hl hj)).1

/-! ### lines of several files -/

theorem isFile_append {a b : List Str} {ks ns : List Line} (h : IsFile a ks) (h' : IsFile b ns) :
    IsFile (a ++ b) (ks ++ ns) := by
  induction h with
  | nil => exact h'
  | cons x y _ ih => exact .cons x y ih

theorem meaning_append : ∀ (ks ns : List Line) (d), meaning d (ks ++ ns) = meaning (meaning d ks) ns
  | [], _, _ => rfl
  | .blank :: ks, ns, d => by
    show meaning d (ks ++ ns) = _
    rw [meaning_append ks ns]; rfl
  | .define n vs c :: ks, ns, d => by
    show meaning _ (ks ++ ns) = _
    rw [meaning_append ks ns]; rfl
  | .cont vs c :: ks, ns, d => by
    show meaning _ (ks ++ ns) = _
    rw [meaning_append ks ns]; rfl

theorem extendLast_ne {x : List (Str × List Str)} {e} (d new) :
    extendLast (d ++ (x ++ [e])) new = d ++ (x ++ [(e.1, e.2 ++ new)]) := by
  rw [← List.append_assoc, extendLast_snoc, List.append_assoc]

theorem meaning_keep (d : List (Str × List Str)) : ∀ (ks : List Line) (x e),
    meaning (d ++ (x ++ [e])) ks = d ++ meaning (x ++ [e]) ks
  | [], _, _ => rfl
  | .blank :: ks, x, e => meaning_keep d ks x e
  | .define n vs c :: ks, x, e => by
    have := meaning_keep d ks (x ++ [e]) (n, vs.map (itemText c))
    show meaning ((d ++ (x ++ [e])) ++ _) ks = _
    rw [List.append_assoc, this]
    rfl
  | .cont vs c :: ks, x, e => by
    show meaning (extendLast _ _) ks = d ++ meaning (extendLast _ _) ks
    rw [extendLast_ne, meaning_keep d ks, extendLast_snoc]

theorem meaning_starts (d : List (Str × List Str)) : ∀ {ks : List Line}, StartsDef ks →
    meaning d ks = d ++ meaning [] ks
  | [], _ => (List.append_nil d).symm
  | .blank :: ks, h => meaning_starts d (ks := ks) h
  | .define n vs c :: ks, _ => meaning_keep d ks [] (n, vs.map (itemText c))
  | .cont .. :: _, h => h.elim

theorem startsDef_flatten : ∀ {kss : List (List Line)}, (∀ ks ∈ kss, StartsDef ks) → StartsDef kss.flatten
  | [], _ => trivial
  | a :: as, h => by
    have h2 := startsDef_flatten (fun k hk => h k (List.mem_cons_of_mem _ hk))
    have h1 := h a (List.mem_cons_self ..)
    rw [List.flatten_cons]
    clear h
    induction a with
    | nil => exact h2
    | cons k a ih =>
      cases k with
      | blank => exact ih h1
      | define => trivial
      | cont => exact h1.elim

theorem meaning_flatten : ∀ {kss : List (List Line)}, (∀ ks ∈ kss, StartsDef ks) →
    meaning [] kss.flatten = (kss.map (meaning [])).flatten
  | [], _ => rfl
  | ks :: kss, h => by
    rw [List.flatten_cons, meaning_append, List.map_cons, List.flatten_cons,
      ← meaning_flatten (fun k hk => h k (List.mem_cons_of_mem _ hk))]
    apply meaning_starts
    exact startsDef_flatten (fun k hk => h k (List.mem_cons_of_mem _ hk))

theorem lineNames_append : ∀ (a b : List Line), lineNames (a ++ b) = lineNames a ++ lineNames b
  | [], _ => rfl
  | .blank :: a, b => lineNames_append a b
  | .cont .. :: a, b => lineNames_append a b
  | .define n _ _ :: a, b => congrArg (n :: ·) (lineNames_append a b)

theorem lineNames_flatten : ∀ (kss : List (List Line)), lineNames kss.flatten = (kss.map lineNames).flatten
  | [] => rfl
  | a :: as => by
    rw [List.flatten_cons, lineNames_append, lineNames_flatten as]; rfl

theorem isFile_flatten {K : List Str → List Line} : ∀ {fs : List (List Str)}, (∀ f ∈ fs, IsFile f (K f)) →
    IsFile fs.flatten (fs.map K).flatten
  | [], _ => .nil
  | f :: fs, h => isFile_append (h f (List.mem_cons_self ..))
      (isFile_flatten (fun k hk => h k (List.mem_cons_of_mem _ hk)))

theorem lookup_perm {d d' : Defs} (hp : d.Perm d') (hn : (d.map Prod.fst).Nodup) (t : Str) :
    d.lookup t = d'.lookup t := by
  have hn' : (d'.map Prod.fst).Nodup := (hp.map Prod.fst).nodup_iff.1 hn
  cases h : d.lookup t with
  | some items => exact (lookup_of_mem hn' (hp.mem_iff.1 (lookup_mem h))).symm
  | none =>
    cases h' : d'.lookup t with
    | none => rfl
    | some items =>
      have := lookup_of_mem hn (hp.mem_iff.2 (lookup_mem h'))
      rw [h] at this
      cases this

/-- Loading the definitions of one kind, in another order of files. -/
theorem parseLines_perm {ty : DefType} {K : List Str → List Line} {fs fs' : List (List Str)}
    (hp : fs.Perm fs') (hK : ∀ f ∈ fs, IsFile f (K f) ∧ StartsDef (K f)) {s s' st : State} {o o' : Defs}
    (hw : Weak ty s [] o) (hw' : Weak ty s' [] o') (hu : s.unseen ty = []) (hu' : s'.unseen ty = [])
    (h : parseLines ty s fs.flatten = .ok st) (hun : st.unseen ty = []) :
    ∃ st', parseLines ty s' fs'.flatten = .ok st' ∧ st'.unseen ty = [] ∧ (st.defs ty).Perm (st'.defs ty) ∧
      (keys (st.defs ty)).Nodup ∧ st.defs (other ty) = o ∧ st'.defs (other ty) = o' := by
  have hK' : ∀ f ∈ fs', IsFile f (K f) ∧ StartsDef (K f) := fun f hf => hK f (hp.mem_iff.2 hf)
  have f1 := isFile_flatten (fun f hf => (hK f hf).1)
  have f2 := isFile_flatten (fun f hf => (hK' f hf).1)
  have sd : ∀ ks ∈ fs.map K, StartsDef ks := by
    intro ks hks; obtain ⟨f, hf, rfl⟩ := List.mem_map.1 hks; exact (hK f hf).2
  have sd' : ∀ ks ∈ fs'.map K, StartsDef ks := by
    intro ks hks; obtain ⟨f, hf, rfl⟩ := List.mem_map.1 hks; exact (hK' f hf).2
  have hok := parseLines_lineOk f1 h
  have pk : (fs.map K).flatten.Perm (fs'.map K).flatten := (hp.map K).flatten
  obtain ⟨a1, a2⟩ := parseLines_weak hw (startsDef_flatten sd) f1 hok
  obtain ⟨b1, _⟩ := parseLines_weak hw' (startsDef_flatten sd') f2 (fun k hk => hok k (pk.mem_iff.2 hk))
  rcases Classical.em ((lineNames (fs.map K).flatten).Nodup ∧
      ∀ n ∈ lineNames (fs.map K).flatten, n ∉ keys []) with hc | hc
  case inr => rw [a2 hc] at h; cases h
  obtain ⟨_, e, g⟩ := a1 hc
  rw [h] at e; cases e
  have pn : (lineNames (fs.map K).flatten).Perm (lineNames (fs'.map K).flatten) := by
    rw [lineNames_flatten, lineNames_flatten]
    exact ((hp.map K).map lineNames).flatten
  obtain ⟨st', e', g'⟩ := b1 ⟨pn.nodup_iff.1 hc.1, fun _ _ => List.not_mem_nil⟩
  have pd : (st.defs ty).Perm (st'.defs ty) := by
    rw [g.1, g'.1, meaning_flatten sd, meaning_flatten sd']
    exact ((hp.map K).map (meaning [])).flatten
  refine ⟨st', e', ?_, pd, by rw [g.1]; exact g.2.1, g.2.2, g'.2.2⟩
  have ht : Tracked ty st := parseLines_tracked h (by
    intro e he; rw [hw.1] at he; cases he)
  have hj : Justified ty st' := parseLines_start f2 (startsDef_flatten sd') e' (by
    intro u hu0; rw [hu'] at hu0; cases hu0)
  apply List.eq_nil_iff_forall_not_mem.2
  intro u huu
  obtain ⟨j1, j2, j3, j4, e, he, hue⟩ := hj u huu
  rcases ht e (pd.mem_iff.2 he) u hue j2 j3 j4 with hk | hk
  · exact j1 (((pd.map Prod.fst).mem_iff).1 hk)
  · rw [hun] at hk; cases hk

theorem expandNets_lookup {nets nets' : Defs} (hl : ∀ t, nets.lookup t = nets'.lookup t) (ip : IpParser) :
    ∀ n, getNetF nets ip n = getNetF nets' ip n
  | 0 => rfl
  | n + 1 => by
    funext q
    rw [getNetF, getNetF, expandNets_lookup hl ip n]
    simp only [hl]

theorem getServiceF_lookup {svcs svcs' : Defs} (hl : ∀ t, svcs.lookup t = svcs'.lookup t) :
    ∀ n, getServiceF svcs n = getServiceF svcs' n
  | 0 => rfl
  | n + 1 => by
    funext q
    rw [getServiceF, getServiceF, getServiceF_lookup hl n]
    simp only [hl]

theorem load_of {svcFiles netFiles : List (List Str)} {s1 st : State} (hs : svcFiles ≠ []) (hn : netFiles ≠ [])
    (h1 : parseLines .services {} svcFiles.flatten = .ok s1) (h2 : s1.unseenServices = [])
    (h3 : parseLines .networks s1 netFiles.flatten = .ok st) (h4 : st.unseenNetworks = []) :
    load svcFiles netFiles = .ok st := by
  have e1 : svcFiles.isEmpty = false := by cases svcFiles with
    | nil => exact absurd rfl hs
    | cons => rfl
  have e2 : netFiles.isEmpty = false := by cases netFiles with
    | nil => exact absurd rfl hn
    | cons => rfl
  have c1 : checkUnseen .services s1 = .ok () := by unfold checkUnseen State.unseen; rw [h2]; rfl
  have c2 : checkUnseen .networks st = .ok () := by unfold checkUnseen State.unseen; rw [h4]; rfl
  unfold load
  rw [e1, e2, h1]
  simp only [bind, Except.bind, Bool.false_eq_true, if_false, c1, h3, c2]

theorem load_nonempty {svcFiles netFiles : List (List Str)} {st : State} (h : load svcFiles netFiles = .ok st) :
    svcFiles ≠ [] ∧ netFiles ≠ [] := by
  constructor
  · rintro rfl
    cases h
  · rintro rfl
    unfold load at h
    cases h1 : svcFiles.isEmpty with
    | true => rw [h1] at h; cases h
    | false =>
      cases h2 : parseLines .services {} svcFiles.flatten with
      | error e => rw [h1, h2] at h; cases h
      | ok s1 =>
        rw [h1, h2] at h
        simp only [bind, Except.bind, Bool.false_eq_true, if_false] at h
        cases hc : checkUnseen .services s1 with
        | error e => rw [hc] at h; cases h
        | ok u => rw [hc] at h; cases h

end Naming
end Verif
