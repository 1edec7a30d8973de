import Verif.Spec.Include
import Verif.Lemmas.Load

namespace Verif
open Spec PyStr Include

/-! ### paths -/

theorem splitOn_ne_nil {c : Char} {s : Str} : splitOn c s ≠ [] := by
  cases s with
  | nil => simp [splitOn]
  | cons d ds =>
    rw [splitOn]
    split
    · simp
    · split <;> simp

theorem splitOn_join (c : Char) : ∀ (a b : Str), splitOn c (a ++ c :: b) = splitOn c a ++ splitOn c b
  | [], b => by simp [splitOn]
  | d :: ds, b => by
    rw [List.cons_append, splitOn, splitOn, splitOn_join c ds b]
    split
    · rfl
    · have := @splitOn_ne_nil c ds
      cases h : splitOn c ds with
      | nil => exact absurd h this
      | cons w ws => rfl

theorem splitOn_joinSlash : ∀ {l : List Str}, l ≠ [] → (∀ c ∈ l, '/' ∉ c) → splitOn '/' (joinSlash l) = l
  | [a], _, h => by rw [joinSlash, splitOn_none (h a (List.mem_cons_self ..))]
  | a :: b :: l, _, h => by
    rw [joinSlash, splitOn_app (h a (List.mem_cons_self ..)),
      splitOn_joinSlash (by simp) (fun c hc => h c (List.mem_cons_of_mem _ hc))]

/-- components without slashes, dots or emptiness -/
def Clean (l : List Str) : Prop := ∀ c ∈ l, '/' ∉ c ∧ c ≠ [] ∧ c ≠ ['.'] ∧ c ≠ ['.', '.']

theorem joinSlash_inj {l m : List Str} (hl : Clean l) (hm : Clean m) (h : joinSlash l = joinSlash m) : l = m := by
  have ne : ∀ {l : List Str}, Clean l → l ≠ [] → joinSlash l ≠ [] := by
    intro l hl hne
    cases l with
    | nil => exact absurd rfl hne
    | cons a l =>
      have := (hl a (List.mem_cons_self ..)).2.1
      cases l with
      | nil => simpa [joinSlash] using this
      | cons b l => simp [joinSlash]
  rcases Classical.em (l = []) with rfl | h1
  · rcases Classical.em (m = []) with rfl | h2
    · rfl
    · exact absurd h.symm (ne hm h2)
  · rcases Classical.em (m = []) with rfl | h2
    · exact absurd h (ne hl h1)
    · rw [← splitOn_joinSlash h1 (fun c hc => (hl c hc).1), h, splitOn_joinSlash h2 (fun c hc => (hm c hc).1)]

theorem clean_dropLast {l : List Str} (h : Clean l) : Clean l.dropLast :=
  fun c hc => h c (List.dropLast_subset _ hc)

theorem walk_clean {comps : List Str} (hc : ∀ c ∈ comps, '/' ∉ c) : ∀ {dir : List Str}, Clean dir →
    Clean (comps.foldl walkStep dir) := by
  induction comps with
  | nil => exact fun h => h
  | cons c cs ih =>
    intro dir hd
    rw [List.foldl_cons]
    refine ih (fun c hc' => hc c (List.mem_cons_of_mem _ hc')) ?_
    unfold walkStep
    split
    · exact hd
    · split
      · exact clean_dropLast hd
      next h1 h2 =>
        intro x hx
        rcases List.mem_append.1 hx with hx | hx
        · exact hd x hx
        · rw [List.mem_singleton] at hx
          subst hx
          rw [not_or] at h1
          exact ⟨hc x (List.mem_cons_self ..), h1.1, h1.2, h2⟩

theorem splitOn_noSep {s c : Str} (h : c ∈ splitOn '/' s) : '/' ∉ c := fun hh => (splitOn_mem h _ hh).2 rfl

theorem locate_clean {cwd : List Str} (h : Clean cwd) (p : Str) : Clean (locate cwd p) := by
  unfold locate
  refine walk_clean (fun c hc => splitOn_noSep hc) ?_
  split
  · intro c hc; cases hc
  · exact h

/-- on absolute paths `normpath` walks the components -/
theorem normStep_abs {acc : List Str} (h : Clean acc) (c : Str) : normStep true acc c = walkStep acc c := by
  have hl : (acc.getLast? == some ['.', '.']) = false := by
    cases hg : acc.getLast? with
    | none => rfl
    | some x =>
      have := (h x (List.mem_of_getLast? hg)).2.2.2
      simpa using this
  unfold normStep walkStep
  rw [hl]
  simp only [Bool.not_true, Bool.false_and, Bool.or_false]
  rcases Classical.em (c = []) with rfl | h1
  · simp
  · rcases Classical.em (c = ['.']) with rfl | h2
    · simp
    · rcases Classical.em (c = ['.', '.']) with rfl | h3
      · simp
      · simp [h1, h2, h3]

theorem foldl_norm {comps : List Str} (hc : ∀ c ∈ comps, '/' ∉ c) : ∀ {acc : List Str}, Clean acc →
    comps.foldl (normStep true) acc = comps.foldl walkStep acc := by
  induction comps with
  | nil => exact fun _ => rfl
  | cons c cs ih =>
    intro acc ha
    rw [List.foldl_cons, List.foldl_cons, normStep_abs ha]
    exact ih (fun c h => hc c (List.mem_cons_of_mem _ h))
      (walk_clean (comps := [c]) (fun d hd => hc d (by rw [List.mem_singleton] at hd; subst hd; exact List.mem_cons_self ..)) ha)

theorem leadSlashes_cases {p : Str} (h : p.head? = some '/') : leadSlashes p = ['/'] ∨ leadSlashes p = ['/', '/'] := by
  cases p with
  | nil => cases h
  | cons c cs =>
    simp only [List.head?_cons, Option.some.injEq] at h
    subst h
    unfold leadSlashes
    split <;> simp_all

/-- the components of the normal form of an absolute path are where it leads -/
theorem comps_norm {p : Str} (h : p.head? = some '/') : comps (normPath p) = locate [] p := by
  have hcl : Clean (locate [] p) := locate_clean (by intro c hc; cases hc) p
  have hn : normPath p = leadSlashes p ++ joinSlash (locate [] p) := by
    unfold normPath
    dsimp only
    have hne : (!(leadSlashes p).isEmpty) = true := by
      rcases leadSlashes_cases h with h | h <;> rw [h] <;> rfl
    rw [hne, foldl_norm (fun c hc => splitOn_noSep hc) (by intro c hc; cases hc)]
    have : locate [] p = (splitOn '/' p).foldl walkStep [] := by
      unfold locate; simp
    rw [← this, if_neg]
    rcases leadSlashes_cases h with h | h <;> rw [h] <;> simp
  have hf : ∀ l : List Str, Clean l → l.filter (fun c => !c.isEmpty && c != ['.']) = l := by
    intro l hl
    rw [List.filter_eq_self]
    intro c hc
    obtain ⟨_, h1, h2, _⟩ := hl c hc
    simp [h1, h2]
  have hj : comps (joinSlash (locate [] p)) = locate [] p := by
    unfold comps
    rcases Classical.em (locate [] p = []) with he | he
    · rw [he]; rfl
    · rw [splitOn_joinSlash he (fun c hc => (hcl c hc).1), hf _ hcl]
  have hsl : ∀ s, comps ('/' :: s) = comps s := by
    intro s
    unfold comps
    rw [show splitOn '/' ('/' :: s) = [] :: splitOn '/' s by rw [splitOn]; simp]
    simp
  rw [hn]
  rcases leadSlashes_cases h with h | h <;> rw [h]
  · rw [List.cons_append, List.nil_append, hsl, hj]
  · rw [List.cons_append, List.cons_append, List.nil_append, hsl, hsl, hj]

theorem foldl_trailing (l : List Str) (dir : List Str) : (l ++ [[]]).foldl walkStep dir = l.foldl walkStep dir := by
  rw [List.foldl_append]
  simp [walkStep]

/-- joining paths: walk the first, then the second -/
theorem locate_join {a b : Str} (ha : a.head? = some '/') :
    (pathJoin a b).head? = some '/' ∧ locate [] (pathJoin a b) = locate (locate [] a) b := by
  unfold pathJoin
  split
  next h =>
    have hb : b.head? = some '/' := by simpa using h
    refine ⟨hb, ?_⟩
    unfold locate
    rw [if_pos hb, if_pos hb]
  next h =>
    have hb : b.head? ≠ some '/' := by simpa using h
    cases a with
    | nil => cases ha
    | cons c cs =>
      have hloc : ∀ s : Str, (if s.head? = some '/' then ([] : List Str) else []) = [] := by intro s; split <;> rfl
      split
      next h2 =>
        have hl : (c :: cs).getLast? = some '/' := by simpa using h2
        refine ⟨by simpa using ha, ?_⟩
        obtain ⟨a', ha'⟩ : ∃ a', c :: cs = a' ++ ['/'] := List.getLast?_eq_some_iff.1 hl
        unfold locate
        rw [if_neg hb, hloc, hloc, ha', List.append_assoc, List.singleton_append, splitOn_join, List.foldl_append,
          splitOn_join]
        rw [show splitOn '/' [] = [[]] from rfl, foldl_trailing]
      next h2 =>
        refine ⟨by simpa using ha, ?_⟩
        unfold locate
        rw [if_neg hb, hloc, hloc, splitOn_join, List.foldl_append]

theorem comps_abs {cwd p : Str} (hc : cwd.head? = some '/') :
    comps (absPath cwd p) = locate (locate [] cwd) p := by
  unfold absPath
  split
  next h =>
    have hp : p.head? = some '/' := by simpa using h
    rw [comps_norm hp]
    unfold locate
    rw [if_pos hp, if_pos hp]
  next h =>
    obtain ⟨h1, h2⟩ := locate_join (b := p) hc
    rw [comps_norm h1, h2]

theorem commonGo_prefix : ∀ {x y : List Str}, (commonGo x y = x ↔ x <+: y) ∧ commonGo x y <+: x ∧ commonGo x y <+: y
  | [], y => by simp [commonGo]
  | a :: as, [] => by simp [commonGo]
  | a :: as, b :: bs => by
    rw [commonGo]
    obtain ⟨h1, h2, h3⟩ := @commonGo_prefix as bs
    rcases Classical.em (a = b) with rfl | h
    · simp only [beq_self_eq_true, if_true]
      refine ⟨?_, ?_, ?_⟩
      · rw [List.cons.injEq, List.cons_prefix_cons, h1]
      · exact List.cons_prefix_cons.2 ⟨rfl, h2⟩
      · exact List.cons_prefix_cons.2 ⟨rfl, h3⟩
    · have : (a == b) = false := by simpa using h
      rw [this]
      simp [List.cons_prefix_cons, h]

theorem commonGo_comm : ∀ {x y : List Str}, commonGo x y = commonGo y x
  | [], [] => rfl
  | [], _ :: _ => rfl
  | _ :: _, [] => rfl
  | a :: as, b :: bs => by
    rw [commonGo, commonGo]
    rcases Classical.em (a = b) with rfl | h
    · simp [@commonGo_comm as bs]
    · have h1 : (a == b) = false := by simpa using h
      have h2 : (b == a) = false := by simpa using fun e : b = a => h e.symm
      rw [h1, h2]
      rfl

/-- `_SubDirectory` decides whether one path leads below the other -/
theorem subDirectory_iff {cwd child parent : Str} (hc : cwd.head? = some '/') :
    subDirectory cwd child parent = true ↔ Below cwd child parent := by
  have hcw : Clean (locate [] cwd) := locate_clean (by intro c hc; cases hc) cwd
  unfold subDirectory commonPath Below
  dsimp only
  rw [comps_abs hc, comps_abs hc]
  generalize hx : locate (locate [] cwd) parent = x
  generalize hy : locate (locate [] cwd) child = y
  have cx : Clean x := hx ▸ locate_clean hcw _
  have : (if compsLt y x = true then commonGo y x else commonGo x y) = commonGo x y := by
    split
    · exact commonGo_comm
    · rfl
  rw [this, beq_iff_eq, List.cons.injEq]
  obtain ⟨h1, h2, _⟩ := @commonGo_prefix x y
  rw [← h1]
  constructor
  · rintro ⟨_, h⟩
    exact joinSlash_inj (fun c hc => cx c (h2.subset hc)) cx h
  · intro h; rw [h]; exact ⟨rfl, rfl⟩

/-! ### preprocessing -/

theorem includeOf_iff {fs : Files} {l : Str} :
    (includeOf l = none ↔ ¬ ∃ p, Includes fs l p) ∧
    ∀ p, Includes fs l p ↔ ∃ f, includeOf l = some f ∧ p = pathJoin fs.base f := by
  have key : ∀ p, Includes fs l p ↔ ∃ f, includeOf l = some f ∧ p = pathJoin fs.base f := by
    intro p
    unfold Includes includeOf
    constructor
    · rintro ⟨w, rest, h1, h2⟩
      rw [h1]
      exact ⟨stripQuotes w, by simp, h2⟩
    · rintro ⟨f, h1, h2⟩
      split at h1
      next w g rest hw =>
        split at h1
        next he =>
          rw [Option.some.injEq] at h1
          subst h1
          have he : w = "#include".toList := by simpa using he
          exact ⟨g, rest, by rw [hw, he], h2⟩
        · cases h1
      · cases h1
  refine ⟨?_, key⟩
  constructor
  · rintro h ⟨p, hp⟩
    obtain ⟨f, hf, _⟩ := (key p).1 hp
    rw [h] at hf; cases hf
  · intro h
    cases hf : includeOf l with
    | none => rfl
    | some f => exact absurd ⟨_, (key _).2 ⟨f, hf, rfl⟩⟩ h

theorem includes_unique {fs : Files} {l p q : Str} (h : Includes fs l p) (h' : Includes fs l q) : p = q := by
  obtain ⟨f, h1, rfl⟩ := (includeOf_iff.2 p).1 h
  obtain ⟨g, h2, rfl⟩ := (includeOf_iff.2 q).1 h'
  rw [h1] at h2; cases h2; rfl

theorem preLines_plain {fs : Files} {rec : Str → List Str × Except Err (List Str)} {l : Str} {ls : List Str}
    (h : ¬ ∃ p, Includes fs l p) : preLines fs rec (l :: ls) = ((preLines fs rec ls).1,
      match (preLines fs rec ls).2 with
        | .ok out => .ok (l :: out)
        | .error e => .error e) := by
  rw [preLines, (includeOf_iff (fs := fs)).1.2 h]
  rfl

theorem preLines_incl {fs : Files} (hc : fs.cwd.head? = some '/')
    {rec : Str → List Str × Except Err (List Str)} {l p : Str} {ls : List Str} (h : Includes fs l p) :
    (¬ Below fs.cwd p fs.base → preLines fs rec (l :: ls) = ([], .error (.raised "InvalidIncludeDirectoryError"))) ∧
    (Below fs.cwd p fs.base → preLines fs rec (l :: ls) =
      match fs.read p with
      | .error e => ([p], .error e)
      | .ok data =>
        match (rec data).2 with
        | .error e => (p :: (rec data).1, .error e)
        | .ok inc => (p :: ((rec data).1 ++ (preLines fs rec ls).1),
            match (preLines fs rec ls).2 with
            | .ok out => .ok (inc ++ out)
            | .error e => .error e)) := by
  obtain ⟨f, hf, rfl⟩ := (includeOf_iff.2 p).1 h
  constructor
  · intro hb
    have : subDirectory fs.cwd (pathJoin fs.base f) fs.base = false := by
      rw [← Bool.not_eq_true, subDirectory_iff hc]; exact hb
    rw [preLines, hf]
    simp only [this, Bool.not_false, if_true]
  · intro hb
    have := (subDirectory_iff hc).2 hb
    rw [preLines, hf]
    simp only [this, Bool.not_true, Bool.false_eq_true, if_false]
    rfl

/-- every file read lies below the base directory -/
theorem preLines_reads {fs : Files} (hc : fs.cwd.head? = some '/')
    {rec : Str → List Str × Except Err (List Str)} (hrec : ∀ d, ∀ p ∈ (rec d).1, Below fs.cwd p fs.base) :
    ∀ ls, ∀ p ∈ (preLines fs rec ls).1, Below fs.cwd p fs.base
  | [], p, h => by cases h
  | l :: ls, p, h => by
    rcases Classical.em (∃ q, Includes fs l q) with ⟨q, hq⟩ | hn
    · rcases Classical.em (Below fs.cwd q fs.base) with hb | hb
      · rw [(preLines_incl hc hq).2 hb] at h
        split at h
        · rw [List.mem_singleton] at h; subst h; exact hb
        next data hd =>
          split at h
          · rcases List.mem_cons.1 h with rfl | h
            · exact hb
            · exact hrec data p h
          · rcases List.mem_cons.1 h with rfl | h
            · exact hb
            · rcases List.mem_append.1 h with h | h
              · exact hrec data p h
              · exact preLines_reads hc hrec ls p h
      · rw [(preLines_incl hc hq).1 hb] at h; cases h
    · rw [preLines_plain hn] at h
      exact preLines_reads hc hrec ls p h

theorem preprocess_reads {fs : Files} (hc : fs.cwd.head? = some '/') : ∀ (d : Nat) (data : Str),
    ∀ p ∈ (preprocess fs d data).1, Below fs.cwd p fs.base
  | 0, _, p, h => by cases h
  | d + 1, data, p, h => preLines_reads hc (preprocess_reads hc d) _ p h

/-- expansion at depth `h + 1` is `Expands h` -/
theorem preLines_ok {fs : Files} (hc : fs.cwd.head? = some '/') {h : Nat}
    {rec : Str → List Str × Except Err (List Str)}
    (hrec : ∀ d out, (rec d).2 = .ok out ↔ ∃ k, h = k + 1 ∧ Expands fs k (dataLines d) out) :
    ∀ ls out, (preLines fs rec ls).2 = .ok out ↔ Expands fs h ls out
  | [], out => by
    rw [preLines]
    constructor
    · intro hh; cases hh; exact .nil
    · intro hh; cases hh; rfl
  | l :: ls, out => by
    have ih := preLines_ok hc hrec ls
    rcases Classical.em (∃ q, Includes fs l q) with ⟨q, hq⟩ | hn
    · rcases Classical.em (Below fs.cwd q fs.base) with hb | hb
      · rw [(preLines_incl hc hq).2 hb]
        constructor
        · intro hh
          split at hh
          · cases hh
          next data hd =>
            split at hh
            · cases hh
            next inc hinc =>
              obtain ⟨k, rfl, hk⟩ := (hrec data inc).1 hinc
              dsimp only at hh
              split at hh
              next out' ho =>
                cases hh
                exact .incl hq hb hd hk ((ih out').1 ho)
              · cases hh
        · intro hh
          cases hh with
          | plain hnn _ => exact absurd ⟨q, hq⟩ hnn
          | incl hp hb' hd hk ho =>
            rw [includes_unique hp hq] at hd
            rw [hd]
            dsimp only
            rw [(hrec _ _).2 ⟨_, rfl, hk⟩]
            dsimp only
            rw [(ih _).2 ho]
      · rw [(preLines_incl hc hq).1 hb]
        constructor
        · intro hh; cases hh
        · intro hh
          cases hh with
          | plain hnn _ => exact absurd ⟨q, hq⟩ hnn
          | incl hp hb' _ _ _ => rw [includes_unique hp hq] at hb'; exact absurd hb' hb
    · rw [preLines_plain hn]
      dsimp only
      constructor
      · intro hh
        split at hh
        next out' ho => cases hh; exact .plain hn ((ih out').1 ho)
        · cases hh
      · intro hh
        cases hh with
        | plain _ ho => rw [(ih _).2 ho]
        | incl hp _ _ _ _ => exact absurd ⟨_, hp⟩ hn

theorem preprocess_ok {fs : Files} (hc : fs.cwd.head? = some '/') : ∀ (d : Nat) (data : Str) (out : List Str),
    (preprocess fs d data).2 = .ok out ↔ ∃ k, d = k + 1 ∧ Expands fs k (dataLines data) out
  | 0, _, _ => by
    constructor
    · intro h; cases h
    · rintro ⟨k, h, _⟩; cases h
  | d + 1, data, out => by
    rw [preprocess, preLines_ok hc (preprocess_ok hc d)]
    constructor
    · exact fun h => ⟨d, rfl, h⟩
    · rintro ⟨k, h, hh⟩; cases h; exact hh

theorem preLines_append {fs : Files} (hc : fs.cwd.head? = some '/')
    {rec : Str → List Str × Except Err (List Str)} {e : Err} : ∀ {pre : List Str} {out rest : List Str},
    (preLines fs rec pre).2 = .ok out → (preLines fs rec rest).2 = .error e →
    (preLines fs rec (pre ++ rest)).2 = .error e
  | [], _, _, _, h => h
  | l :: ls, out, rest, h, h' => by
    rw [List.cons_append]
    rcases Classical.em (∃ q, Includes fs l q) with ⟨q, hq⟩ | hn
    · rcases Classical.em (Below fs.cwd q fs.base) with hb | hb
      · rw [(preLines_incl hc hq).2 hb] at h ⊢
        cases hd : fs.read q with
        | error x => rw [hd] at h; cases h
        | ok data =>
          rw [hd] at h
          dsimp only at h ⊢
          cases hr : (rec data).2 with
          | error x => rw [hr] at h; cases h
          | ok inc =>
            rw [hr] at h
            dsimp only at h ⊢
            split at h
            next o ho => rw [preLines_append hc ho h']
            · cases h
      · rw [(preLines_incl hc hq).1 hb] at h; cases h
    · rw [preLines_plain hn] at h ⊢
      dsimp only at h ⊢
      split at h
      next o ho => rw [preLines_append hc ho h']
      · cases h

theorem preLines_error {fs : Files} (hc : fs.cwd.head? = some '/') {n : Nat}
    {rec : Str → List Str × Except Err (List Str)}
    (hok : ∀ d out, (rec d).2 = .ok out ↔ ∃ k, n = k + 1 ∧ Expands fs k (dataLines d) out)
    (herr : ∀ d e, (rec d).2 = .error e ↔ Fails fs n (dataLines d) e) :
    ∀ ls e, (preLines fs rec ls).2 = .error e ↔ Fails fs (n + 1) ls e := by
  intro ls e
  constructor
  · intro h
    have key : ∀ ls, (preLines fs rec ls).2 = .error e → ∃ pre out l post, ls = pre ++ l :: post ∧
        Expands fs n pre out ∧ (preLines fs rec (l :: post)).2 = .error e ∧
        ∃ p, Includes fs l p ∧ (Below fs.cwd p fs.base → ∀ data, fs.read p = .ok data → (rec data).2 = .error e) := by
      intro ls
      induction ls with
      | nil => intro h; rw [preLines] at h; cases h
      | cons l ls ih =>
        intro h
        have h0 := h
        rcases Classical.em (∃ q, Includes fs l q) with ⟨q, hq⟩ | hn
        · rcases Classical.em (Below fs.cwd q fs.base) with hb | hb
          · rw [(preLines_incl hc hq).2 hb] at h
            cases hd : fs.read q with
            | error x => exact ⟨[], [], l, ls, rfl, .nil, h0, q, hq, fun _ d h => by rw [hd] at h; cases h⟩
            | ok data =>
              rw [hd] at h
              dsimp only at h
              cases hr : (rec data).2 with
              | error x =>
                rw [hr] at h
                exact ⟨[], [], l, ls, rfl, .nil, h0, q, hq, fun _ d h' => by
                  rw [hd] at h'; cases h'; rw [hr]; exact h⟩
              | ok inc =>
                rw [hr] at h
                dsimp only at h
                split at h
                · cases h
                next x hx =>
                  obtain ⟨pre, out, l', post, h1, h2, h3⟩ := ih (by rw [hx]; exact h)
                  obtain ⟨k, rfl, hk⟩ := (hok data inc).1 hr
                  exact ⟨l :: pre, inc ++ out, l', post, by rw [h1]; rfl, .incl hq hb hd hk h2, h3⟩
          · exact ⟨[], [], l, ls, rfl, .nil, h0, q, hq, fun h => absurd h hb⟩
        · rw [preLines_plain hn] at h
          dsimp only at h
          split at h
          · cases h
          next x hx =>
            obtain ⟨pre, out, l', post, h1, h2, h3⟩ := ih (by rw [hx]; exact h)
            exact ⟨l :: pre, l :: out, l', post, by rw [h1]; rfl, .plain hn h2, h3⟩
    obtain ⟨pre, out, l, post, rfl, h2, h3, p, hp, h4⟩ := key ls h
    rcases Classical.em (Below fs.cwd p fs.base) with hb | hb
    · cases hd : fs.read p with
      | error x =>
        rw [(preLines_incl hc hp).2 hb, hd] at h3
        cases h3
        exact .unread h2 hp hb hd
      | ok data => exact .nested h2 hp hb hd ((herr data e).1 (h4 hb data hd))
    · rw [(preLines_incl hc hp).1 hb] at h3
      cases h3
      exact .escape h2 hp hb
  · intro h
    cases h with
    | escape h2 hp hb =>
      refine preLines_append hc ((preLines_ok hc hok _ _).2 h2) ?_
      rw [(preLines_incl hc hp).1 hb]
    | unread h2 hp hb hd =>
      refine preLines_append hc ((preLines_ok hc hok _ _).2 h2) ?_
      rw [(preLines_incl hc hp).2 hb, hd]
    | nested h2 hp hb hd hf =>
      refine preLines_append hc ((preLines_ok hc hok _ _).2 h2) ?_
      rw [(preLines_incl hc hp).2 hb, hd]
      dsimp only
      rw [(herr _ _).2 hf]

theorem preprocess_error {fs : Files} (hc : fs.cwd.head? = some '/') : ∀ (d : Nat) (data : Str) (e : Err),
    (preprocess fs d data).2 = .error e ↔ Fails fs d (dataLines data) e
  | 0, _, _ => by
    constructor
    · intro h; cases h; exact .deep
    · intro h; cases h; rfl
  | d + 1, data, e => by
    rw [preprocess]
    exact preLines_error hc (preprocess_ok hc d) (preprocess_error hc d) _ e

theorem expands_noChain {fs : Files} {h : Nat} {ls out : List Str} (he : Expands fs h ls out) :
    ¬ Chain fs (h + 1) ls := by
  induction he with
  | nil => intro hh; cases hh with | cons hl _ _ _ => cases hl
  | plain hn _ ih =>
    intro hh
    cases hh with
    | cons hl hp hd hk =>
      rcases List.mem_cons.1 hl with rfl | hl
      · exact hn ⟨_, hp⟩
      · exact ih (.cons hl hp hd hk)
  | incl hp hb hd _ _ ih1 ih2 =>
    intro hh
    cases hh with
    | cons hl hp' hd' hk =>
      rcases List.mem_cons.1 hl with rfl | hl
      · rw [includes_unique hp' hp, hd] at hd'
        cases hd'
        exact ih1 hk
      · exact ih2 (.cons hl hp' hd' hk)

/-- the depth error needs a chain -/
theorem preLines_deep {fs : Files} (hc : fs.cwd.head? = some '/') {d : Nat}
    (hr : ∀ p, fs.read p ≠ .error (.raised "RecursionTooDeepError"))
    {rec : Str → List Str × Except Err (List Str)}
    (hrec : ∀ x, (rec x).2 = .error (.raised "RecursionTooDeepError") → Chain fs d (dataLines x)) :
    ∀ ls, (preLines fs rec ls).2 = .error (.raised "RecursionTooDeepError") → Chain fs (d + 1) ls
  | [], h => by rw [preLines] at h; cases h
  | l :: ls, h => by
    have up : Chain fs (d + 1) ls → Chain fs (d + 1) (l :: ls) := by
      intro hh
      cases hh with
      | cons a b c e => exact .cons (List.mem_cons_of_mem _ a) b c e
    rcases Classical.em (∃ q, Includes fs l q) with ⟨q, hq⟩ | hn
    · rcases Classical.em (Below fs.cwd q fs.base) with hb | hb
      · rw [(preLines_incl hc hq).2 hb] at h
        split at h
        next e he => exact absurd (show fs.read q = _ by rw [he]; simpa using h) (hr q)
        next data hd =>
          split at h
          next e he => exact .cons (List.mem_cons_self ..) hq hd (hrec data (by rw [he]; simpa using h))
          · dsimp only at h
            split at h
            · cases h
            next e he => exact up (preLines_deep hc hr hrec ls (by rw [he]; exact h))
      · rw [(preLines_incl hc hq).1 hb] at h
        simp at h
    · rw [preLines_plain hn] at h
      dsimp only at h
      split at h
      · cases h
      next e he => exact up (preLines_deep hc hr hrec ls (by rw [he]; exact h))

theorem preprocess_deep {fs : Files} (hc : fs.cwd.head? = some '/')
    (hr : ∀ p, fs.read p ≠ .error (.raised "RecursionTooDeepError")) : ∀ (d : Nat) (data : Str),
    (preprocess fs d data).2 = .error (.raised "RecursionTooDeepError") → Chain fs d (dataLines data)
  | 0, _, _ => .nil
  | d + 1, data, h => preLines_deep hc hr (preprocess_deep hc hr d) _ h

/-- when all files are readable and allowed, the only error is the depth error -/
theorem preLines_onlyDeep {fs : Files} (hc : fs.cwd.head? = some '/')
    {rec : Str → List Str × Except Err (List Str)} {e : Err} :
    ∀ ls, (∀ l ∈ ls, ∀ p, Includes fs l p → Below fs.cwd p fs.base ∧ ∃ data, fs.read p = .ok data ∧
      ∀ e, (rec data).2 = .error e → e = .raised "RecursionTooDeepError") →
    (preLines fs rec ls).2 = .error e → e = .raised "RecursionTooDeepError"
  | [], _, h => by rw [preLines] at h; cases h
  | l :: ls, hl, h => by
    have hl' := fun m hm => hl m (List.mem_cons_of_mem _ hm)
    rcases Classical.em (∃ q, Includes fs l q) with ⟨q, hq⟩ | hn
    · obtain ⟨hb, data, hd, he⟩ := hl l (List.mem_cons_self ..) q hq
      rw [(preLines_incl hc hq).2 hb, hd] at h
      dsimp only at h
      split at h
      next x hx => cases h; exact he _ hx
      · dsimp only at h
        split at h
        · cases h
        next x hx => cases h; exact preLines_onlyDeep hc ls hl' hx
    · rw [preLines_plain hn] at h
      dsimp only at h
      split at h
      · cases h
      next x hx => cases h; exact preLines_onlyDeep hc ls hl' hx

theorem follows_trans {fs : Files} {a b c : List Str} (h : Follows fs a b) (h' : Follows fs b c) : Follows fs a c := by
  induction h' with
  | refl => exact h
  | step _ h2 h3 h4 ih => exact .step ih h2 h3 h4

theorem preprocess_onlyDeep {fs : Files} (hc : fs.cwd.head? = some '/') : ∀ (d : Nat) (data : Str) (e : Err),
    (∀ ms, Follows fs (dataLines data) ms → ∀ l ∈ ms, ∀ p, Includes fs l p →
      Below fs.cwd p fs.base ∧ ∃ x, fs.read p = .ok x) →
    (preprocess fs d data).2 = .error e → e = .raised "RecursionTooDeepError"
  | 0, _, e, _, h => by cases h; rfl
  | d + 1, data, e, hall, h => by
    refine preLines_onlyDeep hc _ (fun l hl p hp => ?_) h
    obtain ⟨hb, x, hx⟩ := hall _ .refl l hl p hp
    refine ⟨hb, x, hx, fun e' he' => preprocess_onlyDeep hc d x e' (fun ms hms => ?_) he'⟩
    exact hall ms (follows_trans (.step .refl hl hp hx) hms)

end Verif
