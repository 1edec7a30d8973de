import Verif.Lemmas.Aclgen

/-!
Property theorems C36-C38, C56-C59: capirca/aclgen.py, capirca/utils/config.py.
-/

namespace Verif.Props
open Verif Verif.Spec Verif.Aclgen

/-! ### C36 -/

/-- C36: a text output is left alone exactly if the file exists and its content, with line ends read as LF,
differs from the new text only in lines with revision tags. -/
theorem C36_text (d : Disk) (p : Path) (t : Str) : filesUpdated d p t false = false ↔
    ∃ old new, d p = some old ∧ Newlines old new ∧ SameButTags new t := updated_text

/-- C36: only then is it missing from the files to write, whose content is the new text. -/
theorem C36_entry {d : Disk} {dir file : Path} {g : Gen} {t : Str} {es : List Entry}
    (h : renderAcl d dir file g t = .ok es) : ∃ name, withSuffix (file.getLastD []) g.suffix.toList = .ok name ∧
      ((es = [(dir ++ [name], t)] ∧ filesUpdated d (dir ++ [name]) t g.binary = true) ∨
       (es = [] ∧ filesUpdated d (dir ++ [name]) t g.binary = false)) := by
  unfold renderAcl at h
  cases hn : withSuffix (file.getLastD []) g.suffix.toList with
  | error e => rw [hn] at h; cases h
  | ok name =>
    rw [hn] at h
    dsimp only at h
    refine ⟨name, rfl, ?_⟩
    cases hu : filesUpdated d (dir ++ [name]) t g.binary with
    | true => rw [hu] at h; cases h; exact .inl ⟨rfl, rfl⟩
    | false => rw [hu] at h; cases h; exact .inr ⟨rfl, rfl⟩

theorem plan_binary {w : World} {f : Path} {o : Out} (ho : o ∈ (planFile w f).1) :
    ∃ pl, w.parse f = .policy pl ∧ ∃ g ∈ generators, g.platform ∈ pl ∧ ∃ dir, outputDir w.base w.out f = .ok dir ∧
      planOne w dir f g = .ok o := by
  unfold planFile start at ho
  cases hd : outputDir w.base w.out f with
  | error e => rw [hd] at ho; cases ho
  | ok dir =>
    rw [hd] at ho
    cases hp : w.parse f with
    | shading => rw [hp] at ho; cases ho
    | refused => rw [hp] at ho; cases ho
    | other e => rw [hp] at ho; cases ho
    | policy pl =>
      rw [hp] at ho
      dsimp only at ho
      refine ⟨pl, rfl, ?_⟩
      have key : ∀ gs : List Gen, o ∈ (planGens w dir f gs).1 → ∃ g ∈ gs, planOne w dir f g = .ok o := by
        intro gs
        induction gs with
        | nil => intro h; cases h
        | cons g gs ih =>
          intro h
          rw [planGens] at h
          cases hg : planOne w dir f g with
          | error e => rw [hg] at h; cases h
          | ok o' =>
            rw [hg] at h
            rcases List.mem_cons.1 h with rfl | h
            · exact ⟨g, List.mem_cons_self .., hg⟩
            · obtain ⟨g', h1, h2⟩ := ih h
              exact ⟨g', List.mem_cons_of_mem _ h1, h2⟩
      obtain ⟨g, h1, h2⟩ := key _ ho
      rw [List.mem_filter, List.contains_iff_mem] at h1
      exact ⟨g, h1.1, h1.2, dir, rfl, h2⟩

theorem planOne_binary {w : World} {dir f : Path} {g : Gen} {o : Out} (h : planOne w dir f g = .ok o) : o.2 = g.binary := by
  unfold planOne at h
  split at h
  · cases h
  · cases h
  · split at h
    · cases h
    · cases h; rfl

theorem binary_sonic : ∀ g ∈ generators, g.binary = true → g.platform = "sonic" := by decide

theorem mem_planAll {w : World} {o : Out} : ∀ {fs : List Path}, o ∈ (planAll w fs).1 → ∃ f ∈ fs, o ∈ (planFile w f).1
  | f :: fs, h => by
    rw [planAll] at h
    cases hf : planFile w f with
    | mk es r =>
      rw [hf] at h
      cases r with
      | some e => exact ⟨f, List.mem_cons_self .., by rw [hf]; exact h⟩
      | none =>
        rcases List.mem_append.1 h with h | h
        · exact ⟨f, List.mem_cons_self .., by rw [hf]; exact h⟩
        · obtain ⟨g, h1, h2⟩ := mem_planAll h
          exact ⟨g, List.mem_cons_of_mem _ h1, h2⟩

/-- C36 (partial): running twice on unchanged inputs writes nothing the second time, if the outputs have
different paths, contain no CR and none is binary. For binary outputs it is false (`C36_refuted`). The
outputs are what a run on an empty disk would write. -/
theorem C36_second_partial {w : World} {d d₁ : Disk} {files : List Path} {outs : List Entry} {r : Option Err}
    (ho : renderAll w (fun _ => none) files = (outs, r)) (hn : (outs.map Prod.fst).Nodup)
    (hcr : ∀ e ∈ outs, '\r' ∉ e.2) (hb : ∀ f ∈ files, ∀ pl, w.parse f = .policy pl → "sonic" ∉ pl)
    (h : runSequential w d files = (d₁, .done)) :
    renderAll w d₁ files = ([], none) ∧ runSequential w d₁ files = (d₁, .done) := by
  rw [renderAll_plan, todo_empty] at ho
  simp only [Prod.mk.injEq] at ho
  obtain ⟨rfl, rfl⟩ := ho
  obtain ⟨h1, h2⟩ := sequential_ok h
  have hz : todo d₁ (planAll w files).1 = [] := by
    unfold todo
    rw [List.map_eq_nil_iff, List.filter_eq_nil_iff]
    intro o ho
    rw [Bool.not_eq_true]
    have bin : o.2 = false := by
      obtain ⟨f, hf, hof⟩ := mem_planAll ho
      obtain ⟨pl, hpl, g, hg, hgp, dir, _, hone⟩ := plan_binary hof
      rw [planOne_binary hone, ← Bool.not_eq_true]
      intro hb'
      exact hb f hf pl hpl (binary_sonic g hg hb' ▸ hgp)
    have cr : '\r' ∉ o.1.2 := hcr _ (List.mem_map.2 ⟨o, ho, rfl⟩)
    rcases after_write hn h2 ho with ⟨_, h⟩ | ⟨hu, h⟩
    · unfold upd
      rw [bin, updated_text]
      refine ⟨o.1.2, o.1.2, h, ?_, ?_⟩
      · have := newlines_universal o.1.2
        rwa [universal_of_no_cr cr] at this
      · exact counted_iff.1 rfl
    · unfold upd filesUpdated at hu ⊢
      rw [h]
      exact hu
  refine ⟨by rw [renderAll_plan, hz, h1], ?_⟩
  rw [sequential_iff, hz]
  exact ⟨h1, rfl⟩

/-- C36 is false for binary outputs (SONiC): whatever the content, a file is found changed right after it
has been written. -/
theorem C36_refuted (d : Disk) (p : Path) (t : Str) : filesUpdated (put d p t) p t true = true := by
  unfold filesUpdated
  rw [put_same]
  simp only [if_true, bne_iff_ne]
  exact bytesText_ne t

/-- A world with one policy and fixed outputs. -/
def demo : World where
  base := [['b']]
  out := [['o']]
  parse := fun _ => .policy ["juniper", "cisco"]
  render := fun _ g => .text (g.suffix.toList ++ "\n# $Id: 1\nend".toList)

example : (renderAll demo (fun _ => none) [[['b'], "pol".toList, "x.pol".toList]]).1.map Prod.fst =
    [[['o'], "x.jcl".toList], [['o'], "x.acl".toList]] := by decide

example : filesUpdated (fun _ => some "a\n# $Id: 7 $\nb".toList) [] "# $Id:\na\nb".toList false = false := by decide +kernel
example : filesUpdated (fun _ => some "a\nb".toList) [] "a\nb\n".toList false = true := by decide +kernel

/-! ### C37 -/

/-- C37: if rendering any policy of a sequential run fails, the run ends with an exception and the disk is
unchanged. -/
theorem C37_sequential {w : World} {d : Disk} {files : List Path} {f : Path} {e : Err} (hf : f ∈ files)
    (he : (renderFile w d f).2 = some e) : ∃ e', runSequential w d files = (d, .raised e') := by
  rw [renderFile_plan] at he
  obtain ⟨e', h⟩ := planAll_fails hf he
  refine ⟨e', ?_⟩
  unfold runSequential
  rw [renderAll_plan, h]

/-- C37: rendering a policy succeeds exactly if it lies below the base directory and either is shaded
(then nothing is rendered) or parses and is rendered for each of its platforms, none of them `pcap`. -/
theorem C37_renders (w : World) (d : Disk) (f : Path) (hne : f.getLastD [] ≠ []) : (renderFile w d f).2 = none ↔
    (∃ rel, f = w.base ++ rel ∧ (w.base = [] → f.head? ≠ some ['/'])) ∧
    (w.parse f = .shading ∨ ∃ pl, w.parse f = .policy pl ∧
      ∀ g ∈ generators, g.platform ∈ pl → g.platform ≠ "pcap" ∧ ∃ t, w.render f g = .text t) := by
  rw [renderFile_plan]
  unfold planFile start
  have hdir : (∃ dir, outputDir w.base w.out f = .ok dir) ↔
      (∃ rel, f = w.base ++ rel ∧ (w.base = [] → f.head? ≠ some ['/'])) := by
    unfold outputDir relativeTo
    by_cases h0 : w.base = [] ∧ f.head? = some ['/']
    · rw [if_pos h0]
      constructor
      · rintro ⟨dir, h⟩; cases h
      · rintro ⟨rel, _, h⟩; exact absurd h0.2 (h h0.1)
    · rw [if_neg h0]
      by_cases hp : w.base.isPrefixOf f
      · rw [if_pos hp]
        obtain ⟨r, hr⟩ := List.isPrefixOf_iff_prefix.1 hp
        exact ⟨fun _ => ⟨r, hr.symm, fun h h' => h0 ⟨h, h'⟩⟩, fun _ => ⟨_, rfl⟩⟩
      · rw [if_neg hp]
        constructor
        · rintro ⟨dir, h⟩; cases h
        · rintro ⟨rel, h, _⟩; exact absurd (List.isPrefixOf_iff_prefix.2 ⟨rel, h.symm⟩) hp
  have hsuf : ∀ g ∈ generators, (∃ n, withSuffix (f.getLastD []) g.suffix.toList = .ok n) ↔ g.platform ≠ "pcap" := by
    have tab : ∀ g ∈ generators, (g.platform = "pcap" → g.suffix.toList ≠ [] ∧ g.suffix.toList.head? ≠ some '.') ∧
        g.suffix.toList.contains '/' = false ∧ (g.platform ≠ "pcap" →
          ¬ ((g.suffix.toList ≠ [] ∧ g.suffix.toList.head? ≠ some '.') ∨ g.suffix.toList = ['.'])) := by decide
    intro g hg
    obtain ⟨t1, t2, t3⟩ := tab g hg
    unfold withSuffix
    rw [if_neg (by rw [t2]; simp)]
    have hne' : (f.getLastD []).isEmpty = false := by
      cases hl : f.getLastD [] with
      | nil => exact absurd hl hne
      | cons => rfl
    by_cases hp : g.platform = "pcap"
    · rw [if_pos (.inl (t1 hp))]
      constructor
      · rintro ⟨n, h⟩; cases h
      · intro h; exact absurd hp h
    · rw [if_neg (t3 hp), hne', if_neg (by simp)]
      exact ⟨fun _ => hp, fun _ => ⟨_, rfl⟩⟩
  have hone : ∀ dir, ∀ g ∈ generators, (∃ o, planOne w dir f g = .ok o) ↔ g.platform ≠ "pcap" ∧ ∃ t, w.render f g = .text t := by
    intro dir g hg
    rw [← hsuf g hg]
    unfold planOne
    cases w.render f g with
    | refused => simp
    | other e => simp
    | text t =>
      cases withSuffix (f.getLastD []) g.suffix.toList with
      | error e => simp
      | ok n => simp
  have hgens : ∀ dir (gs : List Gen), (planGens w dir f gs).2 = none ↔ ∀ g ∈ gs, ∃ o, planOne w dir f g = .ok o := by
    intro dir gs
    induction gs with
    | nil => simp [planGens]
    | cons g gs ih =>
      rw [planGens]
      cases hg : planOne w dir f g with
      | error e => simp [hg]
      | ok o =>
        dsimp only
        rw [ih, List.forall_mem_cons]
        exact ⟨fun h => ⟨⟨o, hg⟩, h⟩, fun h => h.2⟩
  cases hd : outputDir w.base w.out f with
  | error e =>
    constructor
    · intro h; cases h
    · rintro ⟨h, _⟩
      obtain ⟨dir, h'⟩ := hdir.2 h
      rw [hd] at h'; cases h'
  | ok dir =>
    have h1 := hdir.1 ⟨dir, hd⟩
    cases hp : w.parse f with
    | shading => exact ⟨fun _ => ⟨h1, .inl rfl⟩, fun _ => rfl⟩
    | refused => simp
    | other e => simp
    | policy pl =>
      dsimp only
      rw [hgens]
      constructor
      · intro h
        refine ⟨h1, .inr ⟨pl, rfl, fun g hg hpl => (hone dir g hg).1 (h g ?_)⟩⟩
        exact List.mem_filter.2 ⟨hg, List.contains_iff_mem.2 hpl⟩
      · rintro ⟨_, h | ⟨pl', h, h2⟩⟩
        · cases h
        · cases h
          intro g hg
          rw [List.mem_filter, List.contains_iff_mem] at hg
          exact (hone dir g hg.1).2 (h2 g hg.1 hg.2)

/-- C37: in a parallel run no file is written before all policies have been processed, in every schedule. -/
theorem C37_parallel {w : World} {d : Disk} {files : List Path} {s : Par} (h : Reach w (initial d files) s)
    (hd : s.disk ≠ d) : ∀ t ∈ s.tasks, ∃ e, t.2 = .finished e := by
  obtain ⟨h1, _, h3⟩ := reach_waiting h
  obtain ⟨rs, hr⟩ := h3 fun hm => hd (h1 hm)
  have key : ∀ (ts : List (Path × Task)) (rs : List (Option Err)), results ts = some rs → ∀ t ∈ ts, ∃ e, t.2 = .finished e := by
    intro ts
    induction ts with
    | nil => intro rs _ t ht; cases ht
    | cons x ts ih =>
      intro rs hr t ht
      obtain ⟨f, u⟩ := x
      cases u with
      | queued => simp [results] at hr
      | running _ _ => simp [results] at hr
      | finished e =>
        rw [results] at hr
        cases hrs : results ts with
        | none => rw [hrs] at hr; cases hr
        | some rs' =>
          rcases List.mem_cons.1 ht with rfl | ht
          · exact ⟨e, rfl⟩
          · exact ih rs' hrs t ht
  exact key _ _ hr

/-- C37: how a parallel run ends. Either some policy failed with an exception other than parser and
generator errors, and nothing is written; or the entries of all policies, failed or not, are written in
some order, and the exit status tells whether a policy failed. -/
theorem C37_outcome {w : World} {d : Disk} {files : List Path} {s : Par} {o : Outcome} (h : Reach w (initial d files) s)
    (hm : s.main = .ended o) :
    (∃ e f, f ∈ files ∧ (renderFile w d f).2 = some e ∧ e ≠ .raised "ACLParserError" ∧ e ≠ .raised "ACLGeneratorError" ∧
      o = .raised e ∧ s.disk = d) ∨
    (∃ es r, es.Perm (files.flatMap fun f => (renderFile w d f).1) ∧ writeFiles w.writable d es = (s.disk, r) ∧
      (r = none → (o = .done ∧ ∀ f ∈ files, (renderFile w d f).2 = none) ∨
        (o = .exit1 ∧ ∃ f ∈ files, (renderFile w d f).2 ≠ none)) ∧
      (∀ e, r = some e → o = .raised e)) := by
  rcases (reach_writing h).2 o hm with ⟨e, rfl, hd, hc⟩ | ⟨b, hc, r, hw, ho⟩
  · obtain ⟨h1, h2⟩ := collect_error hc
    obtain ⟨f, hf, he⟩ := List.mem_map.1 h1
    refine .inl ⟨e, f, hf, he, ?_, ?_, rfl, hd⟩
    · rintro rfl; simp [caught] at h2
    · rintro rfl; simp [caught] at h2
  · refine .inr ⟨s.written, r, written_perm h (by rw [hm]; simp), hw, ?_, ?_⟩
    · rintro rfl
      dsimp only at ho
      have := (collect_ok hc).1
      cases b with
      | true =>
        obtain ⟨e, he⟩ := this.1 rfl
        obtain ⟨f, hf, he⟩ := List.mem_map.1 he
        exact .inr ⟨by rw [ho]; rfl, f, hf, by rw [he]; simp⟩
      | false =>
        refine .inl ⟨by rw [ho]; rfl, fun f hf => ?_⟩
        cases hr : (renderFile w d f).2 with
        | none => rfl
        | some e => exact absurd (this.2 ⟨e, List.mem_map.2 ⟨f, hf, hr⟩⟩) (by simp)
    · rintro e rfl; exact ho

/-- A world where cisco output fails. -/
def failing : World := { demo with render := fun _ g =>
  if g.platform == "cisco" then .refused else .text g.suffix.toList }

example : (renderFile failing (fun _ => none) [['b'], "pol".toList, "x.pol".toList]).2 =
    some (.raised "ACLGeneratorError") := by decide

/-- A parallel run, unlike a sequential one, writes the files a failing policy had rendered before it
failed. -/
theorem C37_failed_policy : ∃ (w : World) (f : Path) (s : Par), Reach w (initial (fun _ => none) [f]) s ∧
    s.main = .ended .exit1 ∧ (renderFile w (fun _ => none) f).2 ≠ none ∧ ∃ p t, s.disk p = some t := by
  let f : Path := [['b'], "pol".toList, "x.pol".toList]
  let j : Gen := ⟨"juniper", ".jcl", false⟩
  let c : Gen := ⟨"cisco", ".acl", false⟩
  let p : Path := [['o'], "x.jcl".toList]
  let t : Str := ".jcl".toList
  let d : Disk := fun _ => none
  refine ⟨failing, f, Par.mk (put d p t) [(p, t)] [(f, .finished (some (.raised "ACLGeneratorError")))] (.ended .exit1),
    ?_, rfl, (by decide), p, t, (by decide)⟩
  have e0 : taskStep failing d f .queued = (.running [['o']] [j, c], []) := by decide +kernel
  have e1 : taskStep failing d f (.running [['o']] [j, c]) = (.running [['o']] [c], [(p, t)]) := by decide +kernel
  have e2 : taskStep failing d f (.running [['o']] [c]) = (.finished (some (.raised "ACLGeneratorError")), []) := by
    decide +kernel
  have s0 := Reach.step (w := failing) (s₀ := initial d [f]) .refl
    (.task (s := initial d [f]) (pre := []) (post := []) (f := f) (t := .queued) rfl rfl (by simp))
  have h0 : (initial d [f]).disk = d := rfl
  rw [h0, e0] at s0
  have s1 := Reach.step s0 (.task (pre := []) (post := []) (f := f) (t := .running [['o']] [j, c]) rfl rfl (by simp))
  dsimp only at s1
  rw [e1] at s1
  have s2 := Reach.step s1 (.task (pre := []) (post := []) (f := f) (t := .running [['o']] [c]) rfl rfl (by simp))
  dsimp only at s2
  rw [e2] at s2
  have s3 := Reach.step s2 (.joined (rs := [some (.raised "ACLGeneratorError")]) (b := true) rfl rfl rfl)
  have s4 := Reach.step s3 (.write (p := p) (t := t) (es := []) (b := true) rfl rfl)
  exact .step s4 (.stop (b := true) rfl)

/-! ### C38 -/

/-- C38: if no policy fails, the outputs have different paths and all can be written, then a parallel run,
in whatever schedule, ends with the same disk and status as a sequential run. -/
theorem C38_same {w : World} {d : Disk} {files : List Path} {s : Par} {o : Outcome} {es : List Entry}
    (h : Reach w (initial d files) s) (hm : s.main = .ended o) (hr : renderAll w d files = (es, none))
    (hn : (es.map Prod.fst).Nodup) (hw : ∀ e ∈ es, w.writable e.1 = true) :
    runSequential w d files = (s.disk, o) ∧ o = .done := by
  rw [renderAll_plan, Prod.mk.injEq] at hr
  obtain ⟨hes, hnone⟩ := hr
  obtain ⟨k1, k2⟩ := planAll_ok (Prod.ext rfl hnone : planAll w files = ((planAll w files).1, none))
  have hall : ∀ f ∈ files, (renderFile w d f).2 = none := fun f hf => by rw [renderFile_plan]; exact k1 f hf
  have hflat : (files.flatMap fun f => (renderFile w d f).1) = es := by
    rw [← hes, k2]
    have : ∀ fs : List Path, (fs.flatMap fun f => (renderFile w d f).1) = todo d (fs.flatMap fun f => (planFile w f).1) := by
      intro fs
      induction fs with
      | nil => rfl
      | cons f fs ih => rw [List.flatMap_cons, List.flatMap_cons, todo_append, ih, renderFile_plan]
    exact this files
  rcases C37_outcome h hm with ⟨e, f, hf, he, _⟩ | ⟨es', r, hp, hwr, ho, _⟩
  · rw [hall f hf] at he; cases he
  · rw [hflat] at hp
    have hn' : (es'.map Prod.fst).Nodup := (hp.map Prod.fst).nodup_iff.2 hn
    have hw' : ∀ p ∈ es'.map Prod.fst, w.writable p = true := by
      intro p hp'
      obtain ⟨e, he, rfl⟩ := List.mem_map.1 hp'
      exact hw e (hp.mem_iff.1 he)
    have e1 := write_ok (d := d) hw'
    rw [hwr] at e1
    dsimp only at e1
    subst e1
    rcases ho rfl with ⟨rfl, _⟩ | ⟨_, f, hf, h'⟩
    · refine ⟨sequential_iff.2 ⟨hnone, ?_⟩, rfl⟩
      rw [hes, ← write_perm hp hn' hw', hwr]
    · exact absurd (hall f hf) h'

/-- C38: a parallel run never gets stuck before its end. -/
theorem C38_progress (w : World) (s : Par) : (∃ o, s.main = .ended o) ∨ ∃ s', Step w s s' := by
  cases hm : s.main with
  | ended o => exact .inl ⟨o, rfl⟩
  | waiting =>
    refine .inr ?_
    cases hr : results s.tasks with
    | some rs =>
      cases hc : collect rs with
      | ok b => exact ⟨_, .joined hm hr hc⟩
      | error e => exact ⟨_, .uncaught hm hr hc⟩
    | none =>
      have key : ∀ ts : List (Path × Task), results ts = none → ∃ pre f t post, ts = pre ++ (f, t) :: post ∧ ∀ e, t ≠ .finished e := by
        intro ts
        induction ts with
        | nil => intro h; cases h
        | cons x ts ih =>
          intro h
          obtain ⟨f, t⟩ := x
          cases t with
          | queued => exact ⟨[], f, _, ts, rfl, by simp⟩
          | running _ _ => exact ⟨[], f, _, ts, rfl, by simp⟩
          | finished e =>
            rw [results, Option.map_eq_none_iff] at h
            obtain ⟨pre, g, u, post, h1, h2⟩ := ih h
            exact ⟨(f, .finished e) :: pre, g, u, post, by rw [h1]; rfl, h2⟩
      obtain ⟨pre, f, t, post, h1, h2⟩ := key _ hr
      exact ⟨_, .task hm h1 h2⟩
  | writing rest b =>
    refine .inr ?_
    cases rest with
    | nil => exact ⟨_, .stop hm⟩
    | cons e rest =>
      obtain ⟨p, t⟩ := e
      cases hw : w.writable p with
      | true => exact ⟨_, .write hm hw⟩
      | false => exact ⟨_, .writeFails hm hw⟩

/-- work left in a task -/
def taskWork : Task → Nat
  | .queued => generators.length + 2
  | .running _ gs => gs.length + 1
  | .finished _ => 0

def phase (s : Par) : Nat × Nat :=
  match s.main with
  | .waiting => (2, (s.tasks.map fun t => taskWork t.2).sum)
  | .writing rest _ => (1, rest.length)
  | .ended _ => (0, 0)

/-- C38: every schedule ends. -/
theorem C38_terminates (w : World) : WellFounded fun s' s => Step w s s' := by
  have wf : WellFounded (fun a b : Par => Prod.Lex (· < ·) (· < ·) (phase a) (phase b)) :=
    InvImage.wf phase (Prod.lex ⟨_, Nat.lt_wfRel.wf⟩ ⟨_, Nat.lt_wfRel.wf⟩).wf
  refine Subrelation.wf (fun {s' s} h => ?_) wf
  cases h with
  | @task pre post f t hm ht hf =>
    unfold phase
    simp only [hm, ht]
    refine Prod.Lex.right _ ?_
    simp only [List.map_append, List.map_cons, List.sum_append, List.sum_cons]
    have : taskWork (taskStep w s.disk f t).1 < taskWork t := by
      cases t with
      | queued =>
        rw [taskStep]
        unfold start
        split
        next e _ => simp [taskWork]
        next dir gs hs =>
          simp only [taskWork]
          split at hs
          · cases hs
          · split at hs
            · cases hs; simp
            · cases hs
            · cases hs
            · cases hs
              have := List.length_filter_le (fun g : Gen => (‹List String›).contains g.platform) generators
              omega
      | running dir gs =>
        cases gs with
        | nil => simp [taskStep, taskWork]
        | cons g gs =>
          rw [taskStep]
          split
          · simp [taskWork]
          · simp [taskWork]
      | finished e => exact absurd rfl (hf e)
    omega
  | joined hm _ _ => unfold phase; simp only [hm]; exact Prod.Lex.left _ _ (by decide)
  | uncaught hm _ _ => unfold phase; simp only [hm]; exact Prod.Lex.left _ _ (by decide)
  | write hm _ => unfold phase; simp only [hm]; exact Prod.Lex.right _ (by simp)
  | writeFails hm _ => unfold phase; simp only [hm]; exact Prod.Lex.left _ _ (by decide)
  | stop hm => unfold phase; simp only [hm]; exact Prod.Lex.left _ _ (by decide)

example : (renderAll demo (fun _ => none) [[['b'], "pol".toList, "x.pol".toList]]).2 = none := by decide

/-! ### C56 -/

/-- C56 (partial): after a crash at any point of the writing phase of a run, in whatever order it writes, a
second run brings every output up to date, up to lines with revision tags, and touches no other file.
(Binary outputs must not start with `b`; SONiC output is JSON.) -/
theorem C56_rerun_partial {w : World} {d dc d₂ : Disk} {files : List Path} {outs es : List Entry} {r : Option Err}
    (ho : renderAll w (fun _ => none) files = (outs, r)) (hn : (outs.map Prod.fst).Nodup)
    (hb : ∀ f ∈ files, ∀ g t, g.binary = true → w.render f g = .text t → t.head? ≠ some 'b')
    (hp : es.Perm (renderAll w d files).1) (hc : Crash d es dc) (h : runSequential w dc files = (d₂, .done)) :
    (∀ e ∈ outs, UpToDate d₂ e.1 e.2) ∧ ∀ p, p ∉ outs.map Prod.fst → d₂ p = d p := by
  rw [renderAll_plan, todo_empty, Prod.mk.injEq] at ho
  obtain ⟨rfl, rfl⟩ := ho
  obtain ⟨h1, h2⟩ := sequential_ok h
  have crash_other : ∀ {d dc : Disk} {es : List Entry} {p : Path}, Crash d es dc → p ∉ es.map Prod.fst → dc p = d p := by
    intro d dc es p hc
    induction hc with
    | stop => intro _; rfl
    | part _ =>
      intro hp
      simp only [List.map_cons, List.mem_cons, not_or] at hp
      exact put_other _ _ hp.1
    | next _ ih =>
      intro hp
      simp only [List.map_cons, List.mem_cons, not_or] at hp
      rw [ih hp.2, put_other _ _ hp.1]
  refine ⟨?_, ?_⟩
  · intro e he
    obtain ⟨o, ho, rfl⟩ := List.mem_map.1 he
    rcases after_write hn h2 ho with ⟨_, h⟩ | ⟨hu, h⟩
    · exact .inl h
    · refine .inr ?_
      unfold upd at hu
      cases hb' : o.2 with
      | false =>
        rw [hb', updated_text] at hu
        rw [h]
        exact hu
      | true =>
        rw [hb'] at hu
        unfold filesUpdated at hu
        cases hd : dc o.1.1 with
        | none => rw [hd] at hu; simp at hu
        | some old =>
          exfalso
          rw [hd] at hu
          simp only [if_true, bne_eq_false_iff_eq] at hu
          obtain ⟨f, hf, hof⟩ := mem_planAll ho
          obtain ⟨pl, hpl, g, hg, hgp, dir, _, hone⟩ := plan_binary hof
          have hgb : g.binary = true := by rw [← planOne_binary hone, hb']
          refine hb f hf g o.1.2 hgb ?_ ?_
          · unfold planOne at hone
            split at hone
            · cases hone
            · cases hone
            next t ht =>
              split at hone
              · cases hone
              · cases hone; exact ht
          · rw [← hu]; rfl
  · intro p hp'
    have e1 := write_other (wr := w.writable) (es := todo dc (planAll w files).1) (d := dc) (q := p)
      fun hm => hp' ((todo_sub.map _).subset hm)
    rw [h2] at e1
    refine Eq.trans e1 ?_
    refine crash_other hc fun hm => hp' ?_
    have := (hp.map Prod.fst).mem_iff.1 hm
    rw [renderAll_plan] at this
    exact (todo_sub.map _).subset this

/-- C56 is false exactly: if a crash cuts a file before a last line with a tag, the next run does not
complete it. -/
theorem C56_refuted : ∃ (w : World) (f p : Path) (t : Str) (dc d₂ : Disk),
    renderAll w (fun _ => none) [f] = ([(p, t)], none) ∧ Crash (fun _ => none) [(p, t)] dc ∧
    runSequential w dc [f] = (d₂, .done) ∧ d₂ p ≠ some t := by
  let w : World := { demo with parse := fun _ => .policy ["juniper"], render := fun _ _ => .text "a\n# $Id: 1".toList }
  let f : Path := [['b'], "pol".toList, "x.pol".toList]
  let p : Path := [['o'], "x.jcl".toList]
  refine ⟨w, f, p, "a\n# $Id: 1".toList, put (fun _ => none) p "a".toList, put (fun _ => none) p "a".toList, (by decide +kernel),
    .part ⟨"\n# $Id: 1".toList, rfl⟩, ?_, (by decide)⟩
  have h : renderAll w (put (fun _ => none) p "a".toList) [f] = ([], none) := by decide +kernel
  unfold runSequential
  rw [h]
  rfl

/-! ### C57 -/

theorem withSuffix_ok {name s n : Str} (h : withSuffix name s = .ok n) :
    n = name.take (name.length - (suffixOf name).length) ++ s := by
  unfold withSuffix at h
  split at h
  · cases h
  · split at h
    · cases h
    · split at h
      · cases h
      · cases h; rfl

/-- C57 (partial): the outputs of one policy for different renderings have different names. -/
theorem C57_platforms_partial {name n : Str} {g g' : Gen} (hg : g ∈ generators) (hg' : g' ∈ generators)
    (h : withSuffix name g.suffix.toList = .ok n) (h' : withSuffix name g'.suffix.toList = .ok n) : g = g' := by
  have e := (withSuffix_ok h).symm.trans (withSuffix_ok h')
  have e := List.append_cancel_left e
  have tab : ∀ g ∈ generators, ∀ g' ∈ generators, g.suffix.toList = g'.suffix.toList → g = g' := by decide +kernel
  exact tab g hg g' hg' e

theorem afterDot_app {a b : Str} (hb : '.' ∉ b) : afterDot (a ++ '.' :: b) = b := by
  unfold afterDot
  rw [List.reverse_append, List.reverse_cons, List.append_assoc, List.takeWhile_append_of_pos]
  · simp
  · intro c hc
    rw [List.mem_reverse] at hc
    simp only [bne_iff_ne]
    rintro rfl
    exact hb hc

theorem suffixOf_pol {stem : Str} (h : stem ≠ []) : suffixOf (stem ++ ".pol".toList) = ".pol".toList := by
  have e : afterDot (stem ++ ".pol".toList) = "pol".toList := afterDot_app (a := stem) (b := "pol".toList) (by decide)
  unfold suffixOf
  rw [e]
  have hl : 0 < stem.length := List.length_pos_iff.2 h
  rw [if_pos]
  · rfl
  · simp only [Bool.and_eq_true, decide_eq_true_eq, List.length_append]
    refine ⟨⟨?_, rfl⟩, ?_⟩
    · rw [List.contains_iff_mem]; exact List.mem_append_right _ (by decide)
    · show 3 + 1 < stem.length + 4; omega

/-- C57: the name of the output of `stem.pol` is the stem with the suffix of the rendering. -/
theorem C57_name {stem s n : Str} (hne : stem ≠ []) (h : withSuffix (stem ++ ".pol".toList) s = .ok n) : n = stem ++ s := by
  rw [withSuffix_ok h, suffixOf_pol hne]
  have : (stem ++ ".pol".toList).length - ".pol".toList.length = stem.length := by
    rw [List.length_append]; omega
  rw [this, List.take_left']
  rfl

/-- C57: the output directory keeps the place of the policy below the base directory, without the `pol`
directory. -/
theorem C57_directory {base out sub : Path} {name : Str} (hb : base ≠ []) :
    outputDir base out (base ++ (sub ++ ["pol".toList, name])) = .ok (out ++ sub) := by
  unfold outputDir relativeTo
  rw [if_neg (fun h => hb h.1), if_pos (List.isPrefixOf_iff_prefix.2 ⟨_, rfl⟩), List.drop_left']
  · simp
  · rfl

/-- C57 (partial): policies with different places or stems have different outputs for the same rendering;
if the stems contain no dots, different renderings of different policies have different outputs too. -/
theorem C57_policies_partial {base out sub sub' : Path} {stem stem' n n' : Str} {g g' : Gen} (hb : base ≠ [])
    (hs : stem ≠ []) (hs' : stem' ≠ []) (hg : g ∈ generators) (hg' : g' ∈ generators)
    (hdot : g = g' ∨ ('.' ∉ stem ∧ '.' ∉ stem')) {dir dir' : Path}
    (hd : outputDir base out (base ++ (sub ++ ["pol".toList, stem ++ ".pol".toList])) = .ok dir)
    (hd' : outputDir base out (base ++ (sub' ++ ["pol".toList, stem' ++ ".pol".toList])) = .ok dir')
    (hn : withSuffix (stem ++ ".pol".toList) g.suffix.toList = .ok n)
    (hn' : withSuffix (stem' ++ ".pol".toList) g'.suffix.toList = .ok n') (h : dir ++ [n] = dir' ++ [n']) :
    sub = sub' ∧ stem = stem' ∧ g = g' := by
  rw [C57_directory hb] at hd hd'
  cases hd; cases hd'
  have e1 := C57_name hs hn
  have e2 := C57_name hs' hn'
  obtain ⟨h1, h2⟩ := List.append_inj' h rfl
  have hsub := List.append_cancel_left h1
  simp only [List.cons.injEq, and_true] at h2
  rw [e1, e2] at h2
  have hst : stem = stem' := by
    rcases hdot with rfl | ⟨hd1, hd2⟩
    · exact List.append_cancel_right h2
    · have tab : ∀ g ∈ generators, g.suffix.toList = [] ∨ g.suffix.toList.head? = some '.' ∨ g.platform = "pcap" := by decide
      have tab2 : ∀ g ∈ generators, g.platform = "pcap" → g.suffix.toList.head? = some '-' := by decide
      have ok : ∀ {g : Gen} {stem n : Str}, g ∈ generators → withSuffix (stem ++ ".pol".toList) g.suffix.toList = .ok n →
          g.suffix.toList = [] ∨ g.suffix.toList.head? = some '.' := by
        intro g stem n hg hn
        rcases tab g hg with h | h | h
        · exact .inl h
        · exact .inr h
        · exfalso
          unfold withSuffix at hn
          split at hn
          · cases hn
          · rw [if_pos] at hn
            · cases hn
            · refine .inl ⟨fun h' => ?_, fun h' => ?_⟩
              · have := tab2 g hg h; rw [h'] at this; cases this
              · rw [tab2 g hg h] at h'; cases h'
      have key : ∀ (a b s t : Str), '.' ∉ a → '.' ∉ b → (s = [] ∨ s.head? = some '.') → (t = [] ∨ t.head? = some '.') →
          a ++ s = b ++ t → a = b := by
        intro a
        induction a with
        | nil =>
          intro b s t _ hb hs _ h
          cases b with
          | nil => rfl
          | cons c b =>
            simp only [List.nil_append, List.cons_append] at h
            rcases hs with rfl | hs
            · cases h
            · rw [h] at hs; cases hs; exact absurd (List.mem_cons_self ..) hb
        | cons x a ih =>
          intro b s t ha hb hs ht h
          cases b with
          | nil =>
            simp only [List.nil_append, List.cons_append] at h
            rcases ht with rfl | ht
            · cases h
            · rw [← h] at ht; cases ht; exact absurd (List.mem_cons_self ..) ha
          | cons c b =>
            simp only [List.cons_append, List.cons.injEq] at h
            rw [h.1, ih b s t (fun hh => ha (List.mem_cons_of_mem _ hh)) (fun hh => hb (List.mem_cons_of_mem _ hh)) hs ht h.2]
      exact key _ _ _ _ hd1 hd2 (ok hg hn) (ok hg' hn') h2
  refine ⟨hsub, hst, ?_⟩
  subst hst
  have := List.append_cancel_left h2
  have tab : ∀ g ∈ generators, ∀ g' ∈ generators, g.suffix.toList = g'.suffix.toList → g = g' := by decide +kernel
  exact tab g hg g' hg' this

/-- C57 is false in general: the Terraform output of `a.pol` and the SONiC output of `a.tf.pol` are the
same file. -/
theorem C57_refuted : ∃ g ∈ generators, ∃ g' ∈ generators, g ≠ g' ∧
    withSuffix "a.pol".toList g.suffix.toList = .ok "a.tf.json".toList ∧
    withSuffix "a.tf.pol".toList g'.suffix.toList = .ok "a.tf.json".toList :=
  ⟨⟨"gce_vpc_tf", ".tf.json", false⟩, (by decide), ⟨"sonic", ".json", true⟩, (by decide), (by decide), (by decide), (by decide)⟩

example : withSuffix "edge.pol".toList ".jcl".toList = .ok "edge.jcl".toList := by decide

/-! ### C58 -/

/-- C58 (partial): if a sequential run ends normally, every policy that is not shaded has an up-to-date
output for each of its platforms that `aclgen` renders. Other platforms, and shaded policies, are skipped
without an error (`C58_refuted`). -/
theorem C58_outputs_partial {w : World} {d d₁ : Disk} {files : List Path} {outs : List Entry} {r : Option Err}
    (ho : renderAll w (fun _ => none) files = (outs, r)) (hn : (outs.map Prod.fst).Nodup)
    (hb : ∀ f ∈ files, ∀ g t, g.binary = true → w.render f g = .text t → t.head? ≠ some 'b')
    (h : runSequential w d files = (d₁, .done)) {f : Path} (hf : f ∈ files) {pl : List String}
    (hp : w.parse f = .policy pl) {g : Gen} (hg : g ∈ generators) (hgp : g.platform ∈ pl) :
    ∃ dir name t, outputDir w.base w.out f = .ok dir ∧ withSuffix (f.getLastD []) g.suffix.toList = .ok name ∧
      w.render f g = .text t ∧ UpToDate d₁ (dir ++ [name]) t := by
  have hup := (C56_rerun_partial ho hn hb (List.Perm.refl _) .stop h).1
  obtain ⟨h1, _⟩ := sequential_ok h
  obtain ⟨k1, k2⟩ := planAll_ok (Prod.ext rfl h1 : planAll w files = ((planAll w files).1, none))
  have hfn := k1 f hf
  have hsub : ∀ o ∈ (planFile w f).1, o ∈ (planAll w files).1 := fun o ho => by
    rw [k2]; exact List.mem_flatMap.2 ⟨f, hf, ho⟩
  unfold planFile start at hfn hsub
  cases hd : outputDir w.base w.out f with
  | error e => rw [hd] at hfn; cases hfn
  | ok dir =>
    rw [hd, hp] at hfn hsub
    dsimp only at hfn hsub
    have hgens : ∀ (gs : List Gen), (planGens w dir f gs).2 = none → ∀ g ∈ gs, ∃ o, planOne w dir f g = .ok o ∧ o ∈ (planGens w dir f gs).1 := by
      intro gs
      induction gs with
      | nil => intro _ g hg; cases hg
      | cons x gs ih =>
        intro hh g hg
        rw [planGens] at hh ⊢
        cases hx : planOne w dir f x with
        | error e => rw [hx] at hh; cases hh
        | ok o =>
          rw [hx] at hh
          rcases List.mem_cons.1 hg with rfl | hg
          · exact ⟨o, hx, List.mem_cons_self ..⟩
          · obtain ⟨o', i1, i2⟩ := ih hh g hg
            exact ⟨o', i1, List.mem_cons_of_mem _ i2⟩
    obtain ⟨o, i1, i2⟩ := hgens _ hfn g (List.mem_filter.2 ⟨hg, List.contains_iff_mem.2 hgp⟩)
    have i3 := hsub o i2
    rw [renderAll_plan, todo_empty, Prod.mk.injEq] at ho
    have i4 := hup o.1 (by rw [← ho.1]; exact List.mem_map.2 ⟨o, i3, rfl⟩)
    unfold planOne at i1
    cases hr : w.render f g with
    | refused => rw [hr] at i1; cases i1
    | other e => rw [hr] at i1; cases i1
    | text t =>
      rw [hr] at i1
      dsimp only at i1
      cases hw : withSuffix (f.getLastD []) g.suffix.toList with
      | error e => rw [hw] at i1; cases i1
      | ok name =>
        rw [hw] at i1
        cases i1
        exact ⟨dir, name, t, rfl, rfl, rfl, i4⟩

/-- C58 is false: a policy for `versa` (a platform with a generator) and a shaded policy are skipped, and the
run ends normally without writing. -/
theorem C58_refuted (d : Disk) : ∃ (f : Path),
    runSequential { demo with parse := fun _ => .policy ["versa"] } d [f] = (d, .done) ∧
    runSequential { demo with parse := fun _ => .shading } d [f] = (d, .done) :=
  ⟨[['b'], "pol".toList, "x.pol".toList], rfl, rfl⟩

/-- C58: a policy for `pcap` always makes the run fail: the suffixes `-accept.pcap` and `-deny.pcap` are
not accepted. -/
theorem C58_pcap {w : World} {d : Disk} {files : List Path} {f : Path} (hf : f ∈ files) (hne : f.getLastD [] ≠ [])
    {pl : List String} (hp : w.parse f = .policy pl) (hpc : "pcap" ∈ pl) : ∃ e, runSequential w d files = (d, .raised e) := by
  cases he : (renderFile w d f).2 with
  | some e => exact C37_sequential hf he
  | none =>
    exfalso
    obtain ⟨_, h | ⟨pl', h, h2⟩⟩ := (C37_renders w d f hne).1 he
    · rw [hp] at h; cases h
    · rw [hp] at h
      cases h
      exact (h2 ⟨"pcap", "-accept.pcap", false⟩ (by decide) hpc).1 rfl

/-! ### C59 -/

theorem lookup_filter_ne {c : Config} {k k' : String} (h : k ≠ k') :
    (c.filter fun e => e.1 != k').lookup k = c.lookup k := by
  induction c with
  | nil => rfl
  | cons e c ih =>
    obtain ⟨a, v⟩ := e
    rw [List.filter_cons]
    by_cases ha : a = k'
    · subst ha
      simp only [bne_self_eq_false, Bool.false_eq_true, if_false]
      rw [ih, List.lookup_cons]
      have : (k == a) = false := by simpa using h
      rw [this]
    · have hb : (a != k') = true := by simpa using ha
      simp only [hb, if_true]
      rw [List.lookup_cons, List.lookup_cons, ih]

theorem update_lookup (k : String) : ∀ (c u : Config), (update c u).lookup k =
    match lastSetting k (u.map fun e => (e.1, some e.2)) with
    | some (some v) => some v
    | _ => c.lookup k
  | c, [] => rfl
  | c, (a, v) :: u => by
    rw [update, update_lookup k]
    rw [List.map_cons, lastSetting]
    have hs : ∀ u : Config, lastSetting k (u.map fun e => (e.1, some e.2)) = none ∨
        ∃ v, lastSetting k (u.map fun e => (e.1, some e.2)) = some (some v) := by
      intro u
      induction u with
      | nil => exact .inl rfl
      | cons e u ih =>
        rw [List.map_cons, lastSetting]
        rcases ih with h | ⟨v, h⟩
        · rw [h]
          dsimp only
          split
          · exact .inr ⟨_, rfl⟩
          · exact .inl rfl
        · rw [h]; exact .inr ⟨v, rfl⟩
    rcases hs u with h | ⟨v', h⟩
    · rw [h]
      dsimp only
      by_cases ha : a = k
      · subst ha; simp
      · rw [if_neg ha, List.lookup_cons]
        have : (k == a) = false := by simpa using Ne.symm ha
        rw [this]
        exact lookup_filter_ne (Ne.symm ha)
    · rw [h]

/-- The value a set of settings gives, `None` meaning unset. -/
def settingOf (k : String) (l : List (String × Option String)) : Option String :=
  match lastSetting k l with
  | some (some v) => some v
  | _ => none

theorem last_none {k : String} : ∀ {l : List (String × Option String)}, k ∉ l.map Prod.fst → lastSetting k l = none
  | [], _ => rfl
  | (a, v) :: l, h => by
    simp only [List.map_cons, List.mem_cons, not_or] at h
    rw [lastSetting, last_none h.2, if_neg (Ne.symm h.1)]

theorem last_append (k : String) (l : List (String × Option String)) (a : String) (v : Option String) :
    lastSetting k (l ++ [(a, v)]) = if a = k then some v else lastSetting k l := by
  induction l with
  | nil => simp [lastSetting]
  | cons e l ih =>
    obtain ⟨b, u⟩ := e
    rw [List.cons_append, lastSetting, ih]
    by_cases h : a = k
    · simp [h]
    · rw [if_neg h, if_neg h, lastSetting]

theorem last_filter {k a : String} {l : List (String × Option String)} (h : a ≠ k) :
    lastSetting k (l.filter fun x => x.1 != a) = lastSetting k l := by
  induction l with
  | nil => rfl
  | cons e l ih =>
    obtain ⟨b, u⟩ := e
    rw [List.filter_cons]
    by_cases hb : b = a
    · subst hb
      simp only [bne_self_eq_false, Bool.false_eq_true, if_false]
      rw [ih, lastSetting, if_neg h]
      cases lastSetting k l <;> rfl
    · have : (b != a) = true := by simpa using hb
      simp only [this, if_true]
      rw [lastSetting, lastSetting, ih]

theorem last_dropNone (k : String) : ∀ {l : List (String × Option String)}, (l.map Prod.fst).Nodup →
    lastSetting k ((dropNone l).map fun e => (e.1, some e.2)) = (settingOf k l).map some
  | [], _ => rfl
  | (a, v) :: l, hn => by
    rw [List.map_cons, List.nodup_cons] at hn
    have ih := last_dropNone k hn.2
    unfold settingOf at ih ⊢
    rw [lastSetting]
    by_cases ha : a = k
    · subst ha
      have hl := last_none hn.1
      rw [hl] at ih ⊢
      dsimp only at ih ⊢
      rw [if_pos rfl]
      cases v with
      | none => exact ih
      | some v =>
        show lastSetting a ((a, some v) :: (dropNone l).map fun e => (e.1, some e.2)) = _
        rw [lastSetting, ih]
        simp
    · rw [if_neg ha]
      have e : ∀ x : Option (Option String), (match (match x with | some r => some r | none => none : Option (Option String)) with
          | some (some v) => some v | _ => none) = (match x with | some (some v) => some v | _ => none) := by
        intro x; cases x <;> rfl
      refine Eq.trans ?_ (congrArg (Option.map some) (e _).symm)
      rw [← ih]
      cases v with
      | none => rfl
      | some v =>
        show lastSetting k ((a, some v) :: (dropNone l).map fun e => (e.1, some e.2)) = _
        rw [lastSetting]
        cases lastSetting k ((dropNone l).map fun e => (e.1, some e.2)) with
        | none => simp [ha]
        | some r => rfl

/-- the merged dictionary of the files -/
theorem merge_spec (k : String) : ∀ (l acc done : List (String × Option String)), (acc.map Prod.fst).Nodup →
    lastSetting k acc = lastSetting k done →
    ((l.foldl (fun a e => e :: a.filter fun x => x.1 != e.1) acc).map Prod.fst).Nodup ∧
    lastSetting k (l.foldl (fun a e => e :: a.filter fun x => x.1 != e.1) acc) = lastSetting k (done ++ l)
  | [], acc, done, hn, h => by rw [List.append_nil]; exact ⟨hn, h⟩
  | (a, v) :: l, acc, done, hn, h => by
    rw [List.foldl_cons]
    have hn' : (((a, v) :: acc.filter fun x => x.1 != a).map Prod.fst).Nodup := by
      rw [List.map_cons, List.nodup_cons]
      refine ⟨?_, hn.sublist (List.filter_sublist.map _)⟩
      intro hm
      obtain ⟨e, he, hk⟩ := List.mem_map.1 hm
      have := (List.mem_filter.1 he).2
      simp [hk] at this
    have h' : lastSetting k ((a, v) :: acc.filter fun x => x.1 != a) = lastSetting k (done ++ [(a, v)]) := by
      rw [last_append, lastSetting]
      by_cases ha : a = k
      · subst ha
        have : lastSetting a (acc.filter fun x => x.1 != a) = none := by
          refine last_none fun hm => ?_
          obtain ⟨e, he, hk⟩ := List.mem_map.1 hm
          have := (List.mem_filter.1 he).2
          simp [hk] at this
        rw [this]
        simp
      · rw [last_filter ha, if_neg ha, if_neg ha, h]
        cases lastSetting k done <;> rfl
    have := merge_spec k l _ _ hn' h'
    rw [List.append_assoc] at this
    exact this

/-- C59 (partial): where the value of an option comes from: the configuration files (the last one that
mentions it), else the command line, else the defaults. The documented use of flags on top of a file is
the other way round (`C59_refuted`). -/
theorem C59_value_partial (defaults : Config) {cli : List (String × Option String)} (hc : (cli.map Prod.fst).Nodup)
    (files : List (List (String × Option String))) (k : String) :
    (generateConfigs defaults cli files).lookup k =
      (settingOf k files.flatten).or ((settingOf k cli).or (defaults.lookup k)) := by
  have hfold : ∀ (fs : List (List (String × Option String))) (acc : List (String × Option String)),
      fs.foldl (fun acc f => f.foldl (fun a e => e :: a.filter fun x => x.1 != e.1) acc) acc =
      fs.flatten.foldl (fun a e => e :: a.filter fun x => x.1 != e.1) acc := by
    intro fs
    induction fs with
    | nil => intro acc; rfl
    | cons f fs ih => intro acc; rw [List.foldl_cons, ih, List.flatten_cons, List.foldl_append]
  obtain ⟨m1, m2⟩ := merge_spec k files.flatten [] [] List.nodup_nil rfl
  unfold generateConfigs mergeFiles
  rw [hfold, update_lookup, update_lookup, last_dropNone k m1, last_dropNone k hc]
  have : settingOf k (files.flatten.foldl (fun a e => e :: a.filter fun x => x.1 != e.1) []) = settingOf k files.flatten := by
    unfold settingOf
    rw [m2, List.nil_append]
  rw [this]
  cases settingOf k files.flatten with
  | some v => rfl
  | none =>
    cases settingOf k cli with
    | some v => rfl
    | none => rfl

/-- C59 is false: an option given both on the command line and in a configuration file has the value of
the file. -/
theorem C59_refuted : ∃ (defaults : Config) (cli file : List (String × Option String)),
    cli.lookup "optimize" = some (some "True") ∧
    (generateConfigs defaults cli [file]).lookup "optimize" = some "False" :=
  ⟨[("optimize", "False")], [("optimize", some "True")], [("optimize", some "False")], rfl, by decide⟩

example : (generateConfigs [("exp_info", "2"), ("debug", "False")] [("debug", some "True"), ("exp_info", none)]
    [[("exp_info", some "3")], [("exp_info", some "4")]]).lookup "exp_info" = some "4" := by decide

end Verif.Props
