import Verif.Spec.Aclgen

namespace Verif
open Spec PyStr Aclgen

/-! ### lines -/

theorem lines_split : ∀ s : Str, Lines s (splitOn '\n' s)
  | [] => .last (by simp)
  | c :: cs => by
    have ih := lines_split cs
    rw [splitOn]
    split
    next h =>
      rw [beq_iff_eq] at h
      subst h
      exact .more (l := []) (by simp) ih
    next h =>
      have hc : c ≠ '\n' := fun e => h (by simp [e])
      revert ih
      generalize splitOn '\n' cs = z
      intro ih
      cases ih with
      | last hn => exact .last (by simp [hn, Ne.symm hc])
      | more hn hr => exact .more (l := c :: _) (by simp [hn, Ne.symm hc]) hr

theorem lines_unique {s : Str} {a b : List Str} (h : Lines s a) (h' : Lines s b) : a = b := by
  induction h generalizing b with
  | last hn =>
    cases h' with
    | last _ => rfl
    | more _ _ => simp at hn
  | @more l rest ls hn hr ih =>
    generalize hs : l ++ '\n' :: rest = s' at h'
    cases h' with
    | last hn' => rw [← hs] at hn'; simp at hn'
    | @more l' rest' ls' hn' hr' =>
      have key : ∀ (l l' rest rest' : Str), '\n' ∉ l → '\n' ∉ l' → l ++ '\n' :: rest = l' ++ '\n' :: rest' →
          l = l' ∧ rest = rest' := by
        intro l
        induction l with
        | nil =>
          intro l' rest rest' _ h2 h
          cases l' with
          | nil => simpa using h
          | cons c l' => simp at h h2; exact absurd h.1 h2.1
        | cons d l ih =>
          intro l' rest rest' h1 h2 h
          cases l' with
          | nil => simp at h h1; exact absurd h.1.symm h1.1
          | cons c l' =>
            simp only [List.cons_append, List.cons.injEq] at h
            simp only [List.mem_cons, not_or] at h1 h2
            obtain ⟨e1, e2⟩ := ih l' rest rest' h1.2 h2.2 h.2
            exact ⟨by rw [h.1, e1], e2⟩
      obtain ⟨rfl, rfl⟩ := key _ _ _ _ hn hn' hs
      rw [ih hr']

theorem untagged_iff {l : Str} : untagged l = true ↔ ¬ HasTag l := by
  unfold untagged HasTag
  rw [Bool.not_eq_true', ← Bool.not_eq_true]
  refine not_congr ?_
  rw [List.any_eq_true]
  simp only [decide_eq_true_eq]
  constructor
  · rintro ⟨t, ht, a, b, h⟩
    simp only [p4Tags, List.mem_cons, List.not_mem_nil, or_false] at ht
    rcases ht with rfl | rfl | rfl
    · exact ⟨_, .inl rfl, a, b, by rw [← h, List.append_assoc]⟩
    · exact ⟨_, .inr (.inl rfl), a, b, by rw [← h, List.append_assoc]⟩
    · exact ⟨_, .inr (.inr rfl), a, b, by rw [← h, List.append_assoc]⟩
  · rintro ⟨t, rfl | rfl | rfl, a, b, h⟩
    · exact ⟨"$Id:".toList, by simp [p4Tags], a, b, by rw [h, List.append_assoc]⟩
    · exact ⟨"$Date:".toList, by simp [p4Tags], a, b, by rw [h, List.append_assoc]⟩
    · exact ⟨"$Revision:".toList, by simp [p4Tags], a, b, by rw [h, List.append_assoc]⟩

theorem dropTagged_filter : ∀ ls : List Str, DropTagged ls (ls.filter untagged)
  | [] => .nil
  | l :: ls => by
    rw [List.filter_cons]
    split
    next h => exact .keep (untagged_iff.1 h) (dropTagged_filter ls)
    next h => exact .drop (Classical.byContradiction fun hh => h (untagged_iff.2 hh)) (dropTagged_filter ls)

theorem dropTagged_unique {ls a : List Str} (h : DropTagged ls a) : a = ls.filter untagged := by
  induction h with
  | nil => rfl
  | drop h _ ih => rw [List.filter_cons, if_neg (fun hh => untagged_iff.1 hh h)]; exact ih
  | keep h _ ih => rw [List.filter_cons, if_pos (untagged_iff.2 h), ih]

theorem counted_iff {a b : Str} : countedLines a = countedLines b ↔ SameButTags a b := by
  constructor
  · intro h
    refine ⟨_, _, _, lines_split a, lines_split b, dropTagged_filter _, ?_⟩
    have : (splitOn '\n' a).filter untagged = (splitOn '\n' b).filter untagged := h
    rw [this]
    exact dropTagged_filter _
  · rintro ⟨la, lb, ks, h1, h2, h3, h4⟩
    unfold countedLines
    rw [lines_unique (lines_split a) h1, lines_unique (lines_split b) h2, ← dropTagged_unique h3, dropTagged_unique h4]

theorem newlines_universal (s : Str) : Newlines s (universal s) := by
  induction s using universal.induct with
  | case1 => exact .nil
  | case2 cs ih => rw [universal]; exact .crlf ih
  | case3 cs hne ih =>
    rw [universal]
    · refine .cr ?_ ih
      intro h
      cases cs with
      | nil => cases h
      | cons c cs => cases h; exact hne _ rfl
    · exact hne
  | case4 c cs h1 h2 ih =>
    rw [universal]
    · exact .char (fun e => h2 e) ih
    · exact h1
    · exact h2

theorem newlines_unique {s a : Str} (h : Newlines s a) : a = universal s := by
  induction h with
  | nil => rfl
  | crlf _ ih => rw [universal, ← ih]
  | @cr s t hn _ ih =>
    rw [universal, ← ih]
    intro cs h
    subst h
    exact hn rfl
  | char hc _ ih =>
    rw [universal, ← ih]
    · rintro cs rfl _; exact hc rfl
    · exact hc

theorem universal_of_no_cr : ∀ {s : Str}, '\r' ∉ s → universal s = s := by
  intro s h
  have : Newlines s s := by
    induction s with
    | nil => exact .nil
    | cons c cs ih =>
      simp only [List.mem_cons, not_or] at h
      exact .char (Ne.symm h.1) (ih h.2)
  exact (newlines_unique this).symm

theorem updated_text {d : Disk} {p : Path} {t : Str} : filesUpdated d p t false = false ↔
    ∃ old new, d p = some old ∧ Newlines old new ∧ SameButTags new t := by
  unfold filesUpdated
  cases h : d p with
  | none => simp
  | some old =>
    simp only [Bool.false_eq_true, if_false, bne_eq_false_iff_eq]
    rw [counted_iff]
    constructor
    · intro hs; exact ⟨old, _, rfl, newlines_universal old, hs⟩
    · rintro ⟨old', new, e, hn, hs⟩
      cases e
      rw [newlines_unique hn] at hs
      exact hs

theorem reprByte_pos (q : Char) (b : Nat) : 0 < (reprByte q b).length := by
  unfold reprByte
  split
  · simp
  · split
    · simp
    · split
      · simp
      · split
        · simp
        · split
          · simp
          · split <;> simp

theorem length_flatMap_ge {α β : Type} (f : α → List β) : ∀ (l : List α), (∀ a ∈ l, 0 < (f a).length) → l.length ≤ (l.flatMap f).length
  | [], _ => by simp
  | a :: l, h => by
    rw [List.flatMap_cons, List.length_append, List.length_cons]
    have := length_flatMap_ge f l fun b hb => h b (List.mem_cons_of_mem _ hb)
    have := h a (List.mem_cons_self ..)
    omega

theorem bytesText_ne (s : Str) : bytesText s ≠ s := by
  intro h
  have hl := congrArg List.length h
  unfold bytesText at hl
  simp only [List.length_cons, List.length_append, List.length_nil] at hl
  have h1 := length_flatMap_ge (reprByte (if (s.flatMap fun c => (String.utf8EncodeChar c).map UInt8.toNat).contains '\''.toNat &&
      !(s.flatMap fun c => (String.utf8EncodeChar c).map UInt8.toNat).contains '"'.toNat then '"' else '\''))
    (s.flatMap fun c => (String.utf8EncodeChar c).map UInt8.toNat) fun b _ => reprByte_pos _ b
  have h2 := length_flatMap_ge (fun c => (String.utf8EncodeChar c).map UInt8.toNat) s fun c _ => by
    rw [List.length_map]
    have := Char.utf8Size_pos c
    simp only [String.length_utf8EncodeChar]
    exact this
  omega

/-! ### plans: what a rendering would write -/

/-- an output with its binary flag -/
abbrev Out := Entry × Bool

def upd (d : Disk) (o : Out) : Bool := filesUpdated d o.1.1 o.1.2 o.2

def planOne (w : World) (dir file : Path) (g : Gen) : Except Err Out :=
  match w.render file g with
  | .refused => .error (.raised "ACLGeneratorError")
  | .other e => .error e
  | .text t =>
    match withSuffix (file.getLastD []) g.suffix.toList with
    | .error e => .error e
    | .ok name => .ok ((dir ++ [name], t), g.binary)

def planGens (w : World) (dir file : Path) : List Gen → List Out × Option Err
  | [] => ([], none)
  | g :: gs =>
    match planOne w dir file g with
    | .error e => ([], some e)
    | .ok o => (o :: (planGens w dir file gs).1, (planGens w dir file gs).2)

def planFile (w : World) (file : Path) : List Out × Option Err :=
  match start w file with
  | .error e => ([], some e)
  | .ok (dir, gs) => planGens w dir file gs

def planAll (w : World) : List Path → List Out × Option Err
  | [] => ([], none)
  | f :: fs =>
    match planFile w f with
    | (es, some e) => (es, some e)
    | (es, none) => (es ++ (planAll w fs).1, (planAll w fs).2)

/-- the entries to write among the outputs -/
def todo (d : Disk) (l : List Out) : List Entry := (l.filter (upd d)).map Prod.fst

theorem renderOne_plan (w : World) (d : Disk) (dir file : Path) (g : Gen) : renderOne w d dir file g =
    match planOne w dir file g with
    | .error e => .error e
    | .ok o => .ok (todo d [o]) := by
  unfold renderOne planOne renderAcl todo upd
  cases w.render file g with
  | refused => rfl
  | other e => rfl
  | text t =>
    dsimp only
    cases withSuffix (file.getLastD []) g.suffix.toList with
    | error e => rfl
    | ok name =>
      dsimp only
      rw [List.filter_cons]
      dsimp only
      split <;> simp

theorem todo_append (d : Disk) (a b : List Out) : todo d (a ++ b) = todo d a ++ todo d b := by
  unfold todo
  rw [List.filter_append, List.map_append]

theorem renderGens_plan (w : World) (d : Disk) (dir file : Path) : ∀ gs : List Gen,
    renderGens w d dir file gs = (todo d (planGens w dir file gs).1, (planGens w dir file gs).2)
  | [] => rfl
  | g :: gs => by
    rw [renderGens, planGens, renderOne_plan]
    cases planOne w dir file g with
    | error e => rfl
    | ok o =>
      dsimp only
      rw [renderGens_plan w d dir file gs]
      rw [← todo_append]; rfl

theorem renderFile_plan (w : World) (d : Disk) (f : Path) :
    renderFile w d f = (todo d (planFile w f).1, (planFile w f).2) := by
  unfold renderFile planFile
  cases start w f with
  | error e => rfl
  | ok r => exact renderGens_plan w d r.1 f r.2

theorem renderAll_plan (w : World) (d : Disk) : ∀ fs : List Path,
    renderAll w d fs = (todo d (planAll w fs).1, (planAll w fs).2)
  | [] => rfl
  | f :: fs => by
    rw [renderAll, planAll, renderFile_plan, renderAll_plan w d fs]
    obtain ⟨es, e⟩ := planFile w f
    cases e with
    | some e => rfl
    | none => dsimp only; rw [todo_append]

theorem todo_empty (l : List Out) : todo (fun _ => none) l = l.map Prod.fst := by
  unfold todo
  congr 1
  exact List.filter_eq_self.2 fun _ _ => rfl

theorem planAll_fails {w : World} {f : Path} {e : Err} : ∀ {fs : List Path}, f ∈ fs → (planFile w f).2 = some e →
    ∃ e', (planAll w fs).2 = some e'
  | g :: fs, hf, he => by
    rw [planAll]
    cases hg : planFile w g with
    | mk es r =>
      cases r with
      | some e' => exact ⟨e', rfl⟩
      | none =>
        rcases List.mem_cons.1 hf with rfl | hf
        · rw [hg] at he; cases he
        · exact planAll_fails hf he

theorem planAll_ok {w : World} : ∀ {fs : List Path} {os : List Out}, planAll w fs = (os, none) →
    (∀ f ∈ fs, (planFile w f).2 = none) ∧ os = fs.flatMap fun f => (planFile w f).1
  | [], os, h => by cases h; exact ⟨fun f hf => (by cases hf), rfl⟩
  | f :: fs, os, h => by
    rw [planAll] at h
    cases hf : planFile w f with
    | mk es r =>
      rw [hf] at h
      cases r with
      | some e => simp at h
      | none =>
        dsimp only at h
        simp only [Prod.mk.injEq] at h
        obtain ⟨i1, i2⟩ := planAll_ok (fs := fs) (os := (planAll w fs).1) (by rw [← h.2])
        refine ⟨fun g hg => ?_, ?_⟩
        · rcases List.mem_cons.1 hg with rfl | hg
          · rw [hf]
          · exact i1 g hg
        · rw [List.flatMap_cons, ← i2, hf]; exact h.1.symm

/-! ### writing -/

theorem put_same (d : Disk) (p : Path) (t : Str) : put d p t p = some t := if_pos rfl
theorem put_other (d : Disk) {p q : Path} (t : Str) (h : q ≠ p) : put d p t q = d q := if_neg h

theorem write_other {wr : Path → Bool} : ∀ {es : List Entry} {d : Disk} {q : Path}, q ∉ es.map Prod.fst →
    (writeFiles wr d es).1 q = d q
  | [], d, q, _ => rfl
  | (p, t) :: es, d, q, h => by
    simp only [List.map_cons, List.mem_cons, not_or] at h
    rw [writeFiles]
    split
    · rw [write_other h.2, put_other _ _ h.1]
    · rfl

theorem write_mem {wr : Path → Bool} : ∀ {es : List Entry} {d d' : Disk}, (es.map Prod.fst).Nodup →
    writeFiles wr d es = (d', none) → ∀ {p t}, (p, t) ∈ es → d' p = some t
  | (p, t) :: es, d, d', hn, h, q, u, hm => by
    rw [List.map_cons, List.nodup_cons] at hn
    rw [writeFiles] at h
    split at h
    · rcases List.mem_cons.1 hm with e | hm
      · cases e
        have := write_other (wr := wr) (d := put d p t) hn.1
        rw [h] at this
        exact this.trans (put_same ..)
      · exact write_mem hn.2 h hm
    · simp at h

theorem write_ok {wr : Path → Bool} : ∀ {es : List Entry} {d : Disk}, (∀ p ∈ es.map Prod.fst, wr p = true) →
    (writeFiles wr d es).2 = none
  | [], _, _ => rfl
  | (p, t) :: es, d, h => by
    rw [writeFiles, if_pos (h p (by simp))]
    exact write_ok fun q hq => h q (List.mem_cons_of_mem _ hq)

theorem write_perm {wr : Path → Bool} {es fs : List Entry} {d : Disk} (hp : es.Perm fs) (hn : (es.map Prod.fst).Nodup)
    (hw : ∀ p ∈ es.map Prod.fst, wr p = true) : writeFiles wr d es = writeFiles wr d fs := by
  have hw' : ∀ p ∈ fs.map Prod.fst, wr p = true := fun p h => hw p ((hp.map Prod.fst).mem_iff.2 h)
  have hn' : (fs.map Prod.fst).Nodup := (hp.map Prod.fst).nodup_iff.1 hn
  have e1 := write_ok (d := d) hw
  have e2 := write_ok (d := d) hw'
  refine Prod.ext (funext fun q => ?_) (e1.trans e2.symm)
  rcases Classical.em (q ∈ es.map Prod.fst) with hq | hq
  · obtain ⟨⟨p, t⟩, hm, rfl⟩ := List.mem_map.1 hq
    exact (write_mem hn (Prod.ext rfl e1) hm).trans (write_mem hn' (Prod.ext rfl e2) (hp.mem_iff.1 hm)).symm
  · rw [write_other hq, write_other fun h => hq ((hp.map Prod.fst).mem_iff.2 h)]

theorem todo_sub {d : Disk} {os : List Out} : (todo d os).Sublist (os.map Prod.fst) :=
  List.filter_sublist.map _

theorem todo_keys_nodup {d : Disk} {os : List Out} (h : ((os.map Prod.fst).map Prod.fst).Nodup) :
    ((todo d os).map Prod.fst).Nodup := h.sublist (todo_sub.map _)

/-- distinct paths: the output of a path is determined -/
theorem out_eq {os : List Out} (h : ((os.map Prod.fst).map Prod.fst).Nodup) {o o' : Out} (ho : o ∈ os) (ho' : o' ∈ os)
    (e : o.1.1 = o'.1.1) : o = o' := by
  induction os with
  | nil => cases ho
  | cons x os ih =>
    simp only [List.map_cons, List.nodup_cons] at h
    rcases List.mem_cons.1 ho with rfl | hx
    · rcases List.mem_cons.1 ho' with rfl | hx'
      · rfl
      · exact absurd (List.mem_map.2 ⟨_, List.mem_map.2 ⟨_, hx', rfl⟩, e.symm⟩) h.1
    · rcases List.mem_cons.1 ho' with rfl | hx'
      · exact absurd (List.mem_map.2 ⟨_, List.mem_map.2 ⟨_, hx, rfl⟩, e⟩) h.1
      · exact ih h.2 hx hx'

/-- after writing, an output either has been written or was not changed -/
theorem after_write {wr : Path → Bool} {d d' : Disk} {os : List Out} (hn : ((os.map Prod.fst).map Prod.fst).Nodup)
    (h : writeFiles wr d (todo d os) = (d', none)) {o : Out} (ho : o ∈ os) :
    (upd d o = true ∧ d' o.1.1 = some o.1.2) ∨ (upd d o = false ∧ d' o.1.1 = d o.1.1) := by
  cases hu : upd d o with
  | true =>
    refine .inl ⟨rfl, write_mem (todo_keys_nodup hn) h (p := o.1.1) (t := o.1.2) ?_⟩
    exact List.mem_map.2 ⟨o, List.mem_filter.2 ⟨ho, hu⟩, rfl⟩
  | false =>
    refine .inr ⟨rfl, ?_⟩
    have := write_other (wr := wr) (es := todo d os) (d := d) (q := o.1.1) ?_
    · rw [h] at this; exact this
    · intro hm
      obtain ⟨e, he, hk⟩ := List.mem_map.1 hm
      obtain ⟨o', ho', rfl⟩ := List.mem_map.1 he
      have := out_eq hn ho (List.mem_filter.1 ho').1 hk.symm
      subst this
      rw [(List.mem_filter.1 ho').2] at hu
      cases hu

theorem sequential_ok {w : World} {d d' : Disk} {fs : List Path} (h : runSequential w d fs = (d', .done)) :
    (planAll w fs).2 = none ∧ writeFiles w.writable d (todo d (planAll w fs).1) = (d', none) := by
  unfold runSequential at h
  rw [renderAll_plan] at h
  cases hp : (planAll w fs).2 with
  | some e => rw [hp] at h; simp at h
  | none =>
    rw [hp] at h
    dsimp only at h
    cases hw : writeFiles w.writable d (todo d (planAll w fs).1) with
    | mk d1 r =>
      rw [hw] at h
      cases r with
      | some e => simp at h
      | none => simp only [Prod.mk.injEq, and_true] at h; rw [h]; exact ⟨rfl, rfl⟩

theorem sequential_iff {w : World} {d d' : Disk} {fs : List Path} : runSequential w d fs = (d', .done) ↔
    (planAll w fs).2 = none ∧ writeFiles w.writable d (todo d (planAll w fs).1) = (d', none) := by
  refine ⟨sequential_ok, fun h => ?_⟩
  unfold runSequential
  rw [renderAll_plan, h.1]
  dsimp only
  rw [h.2]

/-! ### parallel runs -/

/-- what a task has appended so far, against the plan of its policy -/
inductive TaskInv (w : World) (d : Disk) (f : Path) : Task → List Entry → Prop
  | queued : TaskInv w d f .queued []
  | running {dir gs es} : renderFile w d f = (es ++ (renderGens w d dir f gs).1, (renderGens w d dir f gs).2) →
      TaskInv w d f (.running dir gs) es
  | finished {e es} : renderFile w d f = (es, e) → TaskInv w d f (.finished e) es

theorem taskStep_inv {w : World} {d : Disk} {f : Path} {t : Task} {es : List Entry} (h : TaskInv w d f t es) :
    TaskInv w d f (taskStep w d f t).1 (es ++ (taskStep w d f t).2) := by
  cases h with
  | queued =>
    rw [taskStep]
    cases hs : start w f with
    | error e => exact .finished (by unfold renderFile; rw [hs]; rfl)
    | ok r => exact .running (by unfold renderFile; rw [hs]; rfl)
  | @running dir gs es hr =>
    cases gs with
    | nil => exact .finished (by rw [hr, renderGens]; simp [taskStep])
    | cons g gs =>
      rw [taskStep]
      rw [renderGens] at hr
      cases hg : renderOne w d dir f g with
      | error e => rw [hg] at hr; exact .finished (by rw [hr])
      | ok es' =>
        rw [hg] at hr
        refine .running ?_
        rw [hr, List.append_assoc]
  | finished hr => exact .finished (by rw [hr]; simp [taskStep])

/-- tasks with what they have appended -/
inductive TasksInv (w : World) (d : Disk) : List (Path × Task) → List (List Entry) → Prop
  | nil : TasksInv w d [] []
  | cons {f t es ts ess} : TaskInv w d f t es → TasksInv w d ts ess → TasksInv w d ((f, t) :: ts) (es :: ess)

structure ParInv (w : World) (d : Disk) (fs : List Path) (s : Par) : Prop where
  files : s.tasks.map Prod.fst = fs
  appended : ∃ ess, TasksInv w d s.tasks ess ∧ s.written.Perm ess.flatten

theorem tasksInv_step {w : World} {d : Disk} {pre post : List (Path × Task)} {f : Path} {t : Task} {ess : List (List Entry)}
    (h : TasksInv w d (pre ++ (f, t) :: post) ess) :
    ∃ ess', TasksInv w d (pre ++ (f, (taskStep w d f t).1) :: post) ess' ∧
      (ess.flatten ++ (taskStep w d f t).2).Perm ess'.flatten := by
  induction pre generalizing ess with
  | nil =>
    cases h with
    | @cons _ _ es _ ess h1 h2 =>
      refine ⟨_, .cons (taskStep_inv h1) h2, ?_⟩
      rw [List.flatten_cons, List.flatten_cons, List.append_assoc, List.append_assoc]
      exact List.Perm.append_left _ List.perm_append_comm
  | cons x pre ih =>
    cases h with
    | @cons g u es _ ess h1 h2 =>
      obtain ⟨ess', h3, h4⟩ := ih h2
      refine ⟨_, .cons h1 h3, ?_⟩
      rw [List.flatten_cons, List.flatten_cons, List.append_assoc]
      exact List.Perm.append_left _ h4

/-- the disk while waiting, and everything the tasks did -/
theorem reach_waiting {w : World} {d : Disk} {fs : List Path} {s : Par} (h : Reach w (initial d fs) s) :
    (s.main = .waiting → s.disk = d) ∧ ParInv w d fs s ∧ (s.main ≠ .waiting → ∃ rs, results s.tasks = some rs) := by
  induction h with
  | refl =>
    refine ⟨fun _ => rfl, ⟨?_, ?_⟩, fun h => absurd rfl h⟩
    · show (fs.map fun f => (f, Task.queued)).map Prod.fst = fs
      rw [List.map_map]
      exact List.map_id fs
    · refine ⟨fs.map fun _ => [], ?_, ?_⟩
      · induction fs with
        | nil => exact .nil
        | cons f fs ih => exact .cons .queued ih
      · have : (fs.map fun _ => ([] : List Entry)).flatten = [] := by
          induction fs with
          | nil => rfl
          | cons f fs ih => rw [List.map_cons, List.flatten_cons, ih]; rfl
        rw [this]
        exact List.Perm.refl _
  | step hr hs ih =>
    obtain ⟨h1, ⟨h2, ess, h3, h4⟩, h5⟩ := ih
    cases hs with
    | @task pre post f t hm ht hf =>
      have hd := h1 hm
      refine ⟨fun _ => hd, ⟨?_, ?_⟩, fun h => absurd hm h⟩
      · rw [← h2, ht]; simp
      · rw [ht] at h3
        obtain ⟨ess', h6, h7⟩ := tasksInv_step h3
        rw [hd]
        exact ⟨ess', h6, (List.Perm.append_right _ h4).trans h7⟩
    | joined hm hrs hc => exact ⟨fun h => (by cases h), ⟨h2, ess, h3, h4⟩, fun _ => ⟨_, hrs⟩⟩
    | uncaught hm hrs hc => exact ⟨fun h => (by cases h), ⟨h2, ess, h3, h4⟩, fun _ => ⟨_, hrs⟩⟩
    | write hm hw => exact ⟨fun h => (by cases h), ⟨h2, ess, h3, h4⟩, fun _ => h5 (by rw [hm]; simp)⟩
    | writeFails hm hw => exact ⟨fun h => (by cases h), ⟨h2, ess, h3, h4⟩, fun _ => h5 (by rw [hm]; simp)⟩
    | stop hm => exact ⟨fun h => (by cases h), ⟨h2, ess, h3, h4⟩, fun _ => h5 (by rw [hm]; simp)⟩

/-- finished tasks have done exactly what a sequential rendering of their policy does -/
theorem finished_all {w : World} {d : Disk} : ∀ {ts : List (Path × Task)} {ess : List (List Entry)} {rs : List (Option Err)},
    TasksInv w d ts ess → results ts = some rs →
    ess = (ts.map Prod.fst).map (fun f => (renderFile w d f).1) ∧ rs = (ts.map Prod.fst).map (fun f => (renderFile w d f).2)
  | [], _, _, h, hr => by cases h; cases hr; exact ⟨rfl, rfl⟩
  | (f, t) :: ts, _, rs, h, hr => by
    cases h with
    | @cons _ _ es _ ess h1 h2 =>
      cases h1 with
      | queued => simp [results] at hr
      | running _ => simp [results] at hr
      | @finished e es h1 =>
        rw [results] at hr
        cases hrs : results ts with
        | none => rw [hrs] at hr; cases hr
        | some rs' =>
          rw [hrs] at hr
          cases hr
          obtain ⟨i1, i2⟩ := finished_all h2 hrs
          rw [List.map_cons, List.map_cons, List.map_cons, h1, ← i1, ← i2]
          exact ⟨rfl, rfl⟩

/-- the write phase: what is written so far is a prefix of `write_files` -/
theorem reach_writing {w : World} {d : Disk} {fs : List Path} {s : Par} (h : Reach w (initial d fs) s) :
    (∀ rest b, s.main = .writing rest b → ∃ donee : List Entry, s.written = donee ++ rest ∧
      writeFiles w.writable d donee = (s.disk, none) ∧ collect (fs.map fun f => (renderFile w d f).2) = .ok b) ∧
    (∀ o, s.main = .ended o →
      (∃ e, o = .raised e ∧ s.disk = d ∧ collect (fs.map fun f => (renderFile w d f).2) = .error e) ∨
      (∃ b, collect (fs.map fun f => (renderFile w d f).2) = .ok b ∧ ∃ r, writeFiles w.writable d s.written = (s.disk, r) ∧
        o = match r with | some e => .raised e | none => if b then .exit1 else .done)) := by
  have wapp : ∀ (wr : Path → Bool) (a : List Entry) (d d' : Disk), writeFiles wr d a = (d', none) → ∀ b,
      writeFiles wr d (a ++ b) = writeFiles wr d' b := by
    intro wr a
    induction a with
    | nil => intro d d' h b; cases h; rfl
    | cons x a ih =>
      intro d d' h b
      obtain ⟨p, t⟩ := x
      rw [writeFiles] at h
      rw [List.cons_append, writeFiles]
      split at h
      next hp => rw [if_pos hp]; exact ih _ _ h b
      · simp at h
  induction h with
  | refl => exact ⟨fun _ _ h => (by cases h), fun _ h => (by cases h)⟩
  | @step s s' hr hs ih =>
    obtain ⟨i0, ⟨i1, ess, i2, i3⟩, i4⟩ := reach_waiting hr
    cases hs with
    | task hm ht hf => exact ⟨fun _ _ h => (by rw [hm] at h; cases h), fun _ h => (by rw [hm] at h; cases h)⟩
    | joined hm hrs hc =>
      refine ⟨fun rest b h => ?_, fun _ h => (by cases h)⟩
      cases h
      refine ⟨[], rfl, by rw [writeFiles, i0 hm], ?_⟩
      rw [(finished_all i2 hrs).2, i1] at hc
      exact hc
    | uncaught hm hrs hc =>
      refine ⟨fun _ _ h => (by cases h), fun o h => ?_⟩
      cases h
      rw [(finished_all i2 hrs).2, i1] at hc
      exact .inl ⟨_, rfl, i0 hm, hc⟩
    | @write p t es b hm hw =>
      refine ⟨fun rest b' h => ?_, fun _ h => (by cases h)⟩
      cases h
      obtain ⟨dn, h1, h2, h3⟩ := ih.1 _ _ hm
      refine ⟨dn ++ [(p, t)], by rw [h1]; simp, ?_, h3⟩
      rw [wapp _ _ _ _ h2, writeFiles, if_pos hw]
      rfl
    | @writeFails p t es b hm hw =>
      refine ⟨fun _ _ h => (by cases h), fun o h => ?_⟩
      cases h
      obtain ⟨dn, h1, h2, h3⟩ := ih.1 _ _ hm
      refine .inr ⟨b, h3, some (.raised "IOError"), ?_, rfl⟩
      show writeFiles w.writable d s.written = _
      rw [h1, wapp _ _ _ _ h2, writeFiles, if_neg (by rw [hw]; simp)]
    | @stop b hm =>
      refine ⟨fun _ _ h => (by cases h), fun o h => ?_⟩
      cases h
      obtain ⟨dn, h1, h2, h3⟩ := ih.1 _ _ hm
      refine .inr ⟨b, h3, none, ?_, rfl⟩
      show writeFiles w.writable d s.written = _
      rw [h1, List.append_nil]
      exact h2

theorem written_perm {w : World} {d : Disk} {fs : List Path} {s : Par} (h : Reach w (initial d fs) s)
    (hm : s.main ≠ .waiting) : s.written.Perm (fs.flatMap fun f => (renderFile w d f).1) := by
  obtain ⟨_, ⟨i1, ess, i2, i3⟩, i4⟩ := reach_waiting h
  obtain ⟨rs, hrs⟩ := i4 hm
  rw [(finished_all i2 hrs).1, i1] at i3
  rw [← List.flatMap_def] at i3
  exact i3

theorem collect_none {rs : List (Option Err)} (h : ∀ r ∈ rs, r = none) : collect rs = .ok false := by
  induction rs with
  | nil => rfl
  | cons r rs ih =>
    have := h r (List.mem_cons_self ..)
    subst this
    rw [collect]
    exact ih fun x hx => h x (List.mem_cons_of_mem _ hx)

theorem collect_error {rs : List (Option Err)} {e : Err} (h : collect rs = .error e) : some e ∈ rs ∧ caught e = false := by
  induction rs with
  | nil => cases h
  | cons r rs ih =>
    cases r with
    | none => rw [collect] at h; obtain ⟨a, b⟩ := ih h; exact ⟨List.mem_cons_of_mem _ a, b⟩
    | some e' =>
      rw [collect] at h
      split at h
      · split at h
        · cases h
        next e'' he =>
          cases h
          obtain ⟨a, b⟩ := ih he
          exact ⟨List.mem_cons_of_mem _ a, b⟩
      next hc => cases h; exact ⟨List.mem_cons_self .., by simpa using hc⟩

theorem collect_ok {rs : List (Option Err)} {b : Bool} (h : collect rs = .ok b) :
    (b = true ↔ ∃ e, some e ∈ rs) ∧ ∀ e, some e ∈ rs → caught e = true := by
  induction rs generalizing b with
  | nil => cases h; simp
  | cons r rs ih =>
    cases r with
    | none => rw [collect] at h; simpa using ih h
    | some e' =>
      rw [collect] at h
      split at h
      next hc =>
        split at h
        next b' hb =>
          cases h
          refine ⟨⟨fun _ => ⟨e', List.mem_cons_self ..⟩, fun _ => rfl⟩, fun e he => ?_⟩
          rcases List.mem_cons.1 he with he | he
          · cases he; exact hc
          · exact (ih hb).2 e he
        · cases h
      · cases h

end Verif
