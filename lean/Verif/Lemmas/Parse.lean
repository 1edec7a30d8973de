import Verif.Lemmas.PyStr

/-! Lemmas about loading definitions. -/

namespace Verif
namespace PyStr
open Spec

theorem splitOn_none {c : Char} : ∀ {s : Str}, c ∉ s → splitOn c s = [s]
  | [], _ => rfl
  | d :: ds, h => by
    have h1 : (d == c) = false := by simpa using fun e : d = c => h (e ▸ List.mem_cons_self ..)
    rw [splitOn, h1, splitOn_none (fun hh => h (List.mem_cons_of_mem _ hh))]
    rfl

theorem splitOn_app {c : Char} : ∀ {s t : Str}, c ∉ s → splitOn c (s ++ c :: t) = s :: splitOn c t
  | [], t, _ => by rw [List.nil_append, splitOn]; simp
  | d :: ds, t, h => by
    have h1 : (d == c) = false := by simpa using fun e : d = c => h (e ▸ List.mem_cons_self ..)
    rw [List.cons_append, splitOn, h1, splitOn_app (fun hh => h (List.mem_cons_of_mem _ hh))]
    rfl

theorem dropWhile_blank {p : Char → Bool} : ∀ {a s : Str}, (∀ c ∈ a, p c = true) →
    (a ++ s).dropWhile p = s.dropWhile p
  | [], _, _ => rfl
  | c :: cs, s, h => by
    rw [List.cons_append, List.dropWhile_cons, h c (List.mem_cons_self ..)]
    simp [dropWhile_blank (fun x hx => h x (List.mem_cons_of_mem _ hx))]

/-- `strip` removes the white space around a text that neither starts nor ends with white space. -/
theorem strip_around {a s b : Str} (ha : Blank a) (hb : Blank b)
    (h1 : ∀ x, s.head? = some x → isSpace x = false) (h2 : ∀ x, s.getLast? = some x → isSpace x = false) :
    strip (a ++ (s ++ b)) = s := by
  unfold strip lstrip rstrip
  rw [dropWhile_blank ha]
  cases s with
  | nil =>
    have : ([] ++ b).dropWhile isSpace = [] := by
      have := dropWhile_blank (s := []) hb
      simpa using this
    rw [this]; rfl
  | cons x xs =>
    have hx := h1 x rfl
    rw [List.cons_append, List.dropWhile_cons, hx]
    simp only [Bool.false_eq_true, if_false]
    rw [← List.cons_append, List.reverse_append,
      dropWhile_blank (fun c hc => hb c (by simpa using hc))]
    have : (x :: xs).reverse.dropWhile isSpace = (x :: xs).reverse := by
      cases hr : (x :: xs).reverse with
      | nil => rfl
      | cons y ys =>
        have : (x :: xs).getLast? = some y := by
          rw [← List.head?_reverse, hr]; rfl
        rw [List.dropWhile_cons, h2 y this]; rfl
    rw [this, List.reverse_reverse]

theorem wordsAux_blank {a : Str} (ha : Blank a) (s : Str) : wordsAux [] (a ++ s) = wordsAux [] s := by
  induction a with
  | nil => rfl
  | cons c cs ih =>
    rw [List.cons_append, wordsAux, ha c (List.mem_cons_self ..)]
    simp only [List.isEmpty_nil, if_true]
    exact ih (fun x hx => ha x (List.mem_cons_of_mem _ hx))

theorem wordsAux_word {v : Str} (hv : ∀ c ∈ v, isSpace c = false) (acc s : Str) :
    wordsAux acc (v ++ s) = wordsAux (v.reverse ++ acc) s := by
  induction v generalizing acc with
  | nil => rfl
  | cons c cs ih =>
    rw [List.cons_append, wordsAux, hv c (List.mem_cons_self ..), if_neg (by simp),
      ih (fun x hx => hv x (List.mem_cons_of_mem _ hx))]
    simp

theorem words_vals {s : Str} {vs : List Str} (h : Vals s vs) : words s = vs := by
  unfold words
  induction h with
  | nil hb =>
    have := wordsAux_blank hb []
    rw [List.append_nil] at this
    rw [this]; rfl
  | @cons sp v rest vs hb hw _ hr _ ih =>
    rw [wordsAux_blank hb, wordsAux_word (fun c hc => (hw.2 c hc).1), List.append_nil]
    rcases hr with rfl | ⟨c, r, rfl, hc⟩
    · rw [wordsAux] at *
      simp only [List.isEmpty_nil, if_true] at ih
      subst ih
      have : v.reverse.isEmpty = false := by simpa using hw.1
      rw [this]; simp
    · rw [wordsAux, hc]
      have : v.reverse.isEmpty = false := by simpa using hw.1
      rw [this]
      rw [wordsAux, hc] at ih
      simp only [List.isEmpty_nil, if_true] at ih
      simp [ih]

theorem wordsAux_trail {b : Str} (hb : Blank b) : ∀ (s acc : Str), wordsAux acc (s ++ b) = wordsAux acc s
  | [], acc => by
    rw [List.nil_append]
    cases b with
    | nil => rfl
    | cons c cs =>
      rw [show wordsAux acc (c :: cs) = if isSpace c then (if acc.isEmpty then wordsAux [] cs else
        acc.reverse :: wordsAux [] cs) else wordsAux (c :: acc) cs from rfl, hb c (List.mem_cons_self ..),
        show wordsAux acc [] = if acc.isEmpty then [] else [acc.reverse] from rfl]
      have h2 : wordsAux [] cs = [] := by
        have := wordsAux_blank (a := cs) (fun x hx => hb x (List.mem_cons_of_mem _ hx)) []
        rw [List.append_nil] at this
        rw [this]; rfl
      rw [h2]; simp
  | c :: cs, acc => by
    rw [List.cons_append, wordsAux, wordsAux]
    rw [wordsAux_trail hb cs, wordsAux_trail hb cs]

theorem mem_takeWhile {p : Char → Bool} {c : Char} : ∀ {s : Str}, c ∈ s.takeWhile p → p c = true
  | x :: xs, h => by
    rw [List.takeWhile_cons] at h
    split at h
    next hx =>
      rcases List.mem_cons.1 h with rfl | h
      · exact hx
      · exact mem_takeWhile h
    · cases h

theorem words_strip (s : Str) : words (strip s) = words s := by
  unfold words strip lstrip rstrip
  have h1 : wordsAux [] s = wordsAux [] (s.dropWhile isSpace) := by
    conv => lhs; rw [← List.takeWhile_append_dropWhile (p := isSpace) (l := s)]
    exact wordsAux_blank (fun c hc => mem_takeWhile hc) _
  rw [h1]
  generalize s.dropWhile isSpace = t
  have h2 : t = (t.reverse.dropWhile isSpace).reverse ++ (t.reverse.takeWhile isSpace).reverse := by
    rw [← List.reverse_append, List.takeWhile_append_dropWhile, List.reverse_reverse]
  conv => rhs; rw [h2]
  exact (wordsAux_trail (b := (t.reverse.takeWhile isSpace).reverse) (fun c hc => by
    rw [List.mem_reverse] at hc
    exact mem_takeWhile hc) _ _).symm

theorem hash_notSpace : isSpace '#' = false := by decide
theorem eq_notSpace : isSpace '=' = false := by decide

theorem blank_noHash {s : Str} (h : Blank s) : '#' ∉ s := fun hh => by
  have := h _ hh; rw [hash_notSpace] at this; cases this

theorem blank_noEq {s : Str} (h : Blank s) : '=' ∉ s := fun hh => by
  have := h _ hh; rw [eq_notSpace] at this; cases this

theorem vals_noHash {s : Str} {vs} (h : Vals s vs) : '#' ∉ s := by
  induction h with
  | nil hb => exact blank_noHash hb
  | cons hb hw _ _ _ ih =>
    simp only [List.mem_append, not_or]
    exact ⟨blank_noHash hb, fun hh => (hw.2 _ hh).2 rfl, ih⟩

theorem vals_noEq {s : Str} {vs} (h : Vals s vs) : '=' ∉ s := by
  induction h with
  | nil hb => exact blank_noEq hb
  | cons hb hw he _ _ ih =>
    simp only [List.mem_append, not_or]
    exact ⟨blank_noEq hb, he, ih⟩

end PyStr
end Verif

namespace Verif
namespace Naming
open Spec PyStr

/-- keys of a dictionary -/
abbrev keys (d : Defs) : List Str := d.map Prod.fst

theorem lookup_isSome {d : Defs} {t : Str} : (d.lookup t).isSome = true ↔ t ∈ keys d := by
  induction d with
  | nil => simp
  | cons e es ih =>
    rw [List.lookup_cons]
    split
    next h => rw [beq_iff_eq] at h; simp [keys, h]
    next h =>
      have h' : t ≠ e.1 := by simpa using h
      rw [ih]; simp [keys, h']

theorem appendItem_absent {d : Defs} {k v : Str} (h : k ∉ keys d) : appendItem d k v = d := by
  unfold appendItem
  conv => rhs; rw [← List.map_id d]
  apply List.map_congr_left
  intro e he
  have : (e.1 == k) = false := by
    simpa using fun hh : e.1 = k => h (hh ▸ List.mem_map.2 ⟨e, he, rfl⟩)
  rw [this]; rfl

theorem keys_appendItem (d : Defs) (k v : Str) : keys (appendItem d k v) = keys d := by
  unfold appendItem keys
  rw [List.map_map]
  apply List.map_congr_left
  intro e _
  simp only [Function.comp_apply]
  split <;> rfl

theorem extendLast_snoc (d : Defs) (e : Str × List Str) (new : List Str) :
    extendLast (d ++ [e]) new = d ++ [(e.1, e.2 ++ new)] := by
  unfold extendLast
  simp

theorem appendItem_last {d : Defs} {k v : Str} {items : List Str} (h : k ∉ keys d) :
    appendItem (d ++ [(k, items)]) k v = d ++ [(k, items ++ [v])] := by
  have := appendItem_absent (v := v) h
  unfold appendItem at *
  rw [List.map_append, this]
  simp

@[simp] theorem setDefs_defs (st : State) (d : Defs) (ty : DefType) : (st.setDefs d ty).defs ty = d := by
  cases ty <;> rfl

@[simp] theorem setUnseen_defs (st : State) (u : List Str) (ty ty' : DefType) :
    (st.setUnseen u ty).defs ty' = st.defs ty' := by
  cases ty <;> cases ty' <;> rfl

@[simp] theorem setUnseen_unseen (st : State) (u : List Str) (ty : DefType) :
    (st.setUnseen u ty).unseen ty = u := by
  cases ty <;> rfl

@[simp] theorem setDefs_unseen (st : State) (d : Defs) (ty ty' : DefType) :
    (st.setDefs d ty).unseen ty' = st.unseen ty' := by
  cases ty <;> cases ty' <;> rfl

@[simp] theorem setUnseen_current (st : State) (u : List Str) (ty : DefType) :
    (st.setUnseen u ty).current = st.current ∧ (st.setUnseen u ty).unit = st.unit := by
  cases ty <;> exact ⟨rfl, rfl⟩

@[simp] theorem setDefs_current (st : State) (d : Defs) (ty : DefType) :
    (st.setDefs d ty).current = st.current ∧ (st.setDefs d ty).unit = st.unit := by
  cases ty <;> exact ⟨rfl, rfl⟩

/-- The other kind. -/
def other : DefType → DefType
  | .services => .networks
  | .networks => .services

@[simp] theorem setDefs_other (st : State) (d : Defs) (ty : DefType) :
    (st.setDefs d ty).defs (other ty) = st.defs (other ty) := by
  cases ty <;> rfl

/-- What the loader's state looks like before lines of one kind, with definitions `d` of that kind
and `o` of the other. -/
def Weak (ty : DefType) (st : State) (d o : Defs) : Prop :=
  st.defs ty = d ∧ (keys d).Nodup ∧ st.defs (other ty) = o

/-- What it looks like after lines of one kind that define `d`. -/
def Good (ty : DefType) (st : State) (d o : Defs) : Prop :=
  st.defs ty = d ∧ (keys d).Nodup ∧
  ((d = [] ∧ st.current = []) ∨
    ∃ d0 n items, d = d0 ++ [(n, items)] ∧ n ≠ [] ∧ st.current = n ∧ st.unit = some (ty, n)) ∧
  st.defs (other ty) = o

theorem Good.weak {ty : DefType} {st : State} {d o : Defs} (h : Good ty st d o) : Weak ty st d o :=
  ⟨h.1, h.2.1, h.2.2.2⟩

theorem addValue_good {ty : DefType} {st : State} {d o : Defs} (h : Good ty st d o) (c v : Str) :
    Good ty (addValue ty c st v) (extendLast d [itemText c v]) o := by
  obtain ⟨h1, h2, h3, h4⟩ := h
  rcases h3 with ⟨rfl, h3⟩ | ⟨d0, n, items, rfl, hn, hc, hu⟩
  · unfold addValue
    rw [h3]
    exact ⟨h1, h2, .inl ⟨rfl, h3⟩, h4⟩
  · have hk : n ∉ keys d0 := by
      intro hh
      rw [keys, List.map_append, List.nodup_append] at h2
      exact h2.2.2 n hh n (by simp) rfl
    have happ : ∀ x, Good ty (st.append x) (d0 ++ [(n, items ++ [x])]) o := by
      intro x
      unfold State.append
      rw [hu]
      simp only [h1]
      refine ⟨by rw [setDefs_defs, appendItem_last hk], ?_, .inr ⟨d0, n, _, rfl, hn, ?_, ?_⟩, ?_⟩
      · simpa [keys] using h2
      · simp [hc]
      · simp [hu]
      · rw [setDefs_other, h4]
    rw [extendLast_snoc]
    unfold addValue itemText
    have : st.current.isEmpty = false := by rw [hc]; simpa using hn
    rw [this]
    simp only [Bool.false_eq_true, if_false]
    rcases Classical.em (c = []) with hcc | hcc
    · subst hcc
      simp only [List.isEmpty_nil, Bool.not_true, Bool.false_eq_true, if_false, if_true]
      obtain ⟨g1, g2, g3, g4⟩ := happ v
      split
      · exact ⟨by simpa using g1, g2, by simpa using g3, by simpa using g4⟩
      · exact ⟨g1, g2, g3, g4⟩
    · rw [if_neg hcc, if_pos (by simpa using hcc)]
      exact happ _

theorem extendLast_nil (d : Defs) : extendLast d [] = d := by
  rcases Classical.em (d = []) with rfl | h
  · rfl
  · rw [← List.dropLast_concat_getLast h, extendLast_snoc]
    simp

theorem extendLast_comp (d : Defs) (a b : List Str) : extendLast (extendLast d a) b = extendLast d (a ++ b) := by
  rcases Classical.em (d = []) with rfl | h
  · rfl
  · rw [← List.dropLast_concat_getLast h, extendLast_snoc, extendLast_snoc, extendLast_snoc]
    simp

theorem foldl_good {ty : DefType} {c : Str} : ∀ {vs : List Str} {st : State} {d o : Defs}, Good ty st d o →
    Good ty (vs.foldl (addValue ty c) st) (extendLast d (vs.map (itemText c))) o
  | [], st, d, o, h => by rw [List.map_nil, extendLast_nil]; exact h
  | v :: vs, st, d, o, h => by
    have := foldl_good (c := c) (vs := vs) (addValue_good h c v)
    rw [extendLast_comp] at this
    exact this

/-- The services check of a definition line. -/
def PortsOk (ty : DefType) (vs : List Str) : Prop := ty = .services → ∀ v ∈ vs, portRe v = true

theorem startDef_good {ty : DefType} {st : State} {d o : Defs} (h : Weak ty st d o) {n body : Str} {vs}
    (hb : Vals body vs) (hn : n ≠ []) (hp : PortsOk ty vs) :
    if n ∈ keys d then startDef ty st n body = .error (.raised "NamespaceCollisionError")
    else ∃ st', startDef ty st n body = .ok st' ∧ Good ty st' (d ++ [(n, [])]) o := by
  have hs : ¬ (ty = .services ∧ ¬ (words (strip body)).all portRe = true) := by
    rintro ⟨h1, h2⟩
    apply h2
    rw [words_strip, words_vals hb, List.all_eq_true]
    exact hp h1
  unfold startDef
  rw [if_neg hs, h.1]
  split
  next hk => rw [if_pos (lookup_isSome.2 hk)]
  next hk =>
    rw [if_neg (by rw [lookup_isSome]; exact hk)]
    refine ⟨_, rfl, ?_, ?_, .inr ⟨d, n, [], rfl, hn, ?_, ?_⟩, ?_⟩
    · rw [setUnseen_defs, setDefs_defs]
      have : ({ st with current := n, unit := some (ty, n) } : State).defs ty = st.defs ty := by
        cases ty <;> rfl
      rw [this, h.1]
    · rw [keys, List.map_append, List.nodup_append]
      refine ⟨h.2.1, by simp, ?_⟩
      intro a ha b hb' hab
      simp at hb'
      subst hb' hab
      exact hk ha
    · simp
    · simp
    · rw [setUnseen_defs, setDefs_other]
      rw [← h.2.2]; cases ty <;> rfl

theorem tail_noHash {pre tail c : Str} (hp : '#' ∉ pre) (ht : Tail tail c) :
    before '#' (pre ++ tail) = pre ∧
      (if (pre ++ tail).contains '#' then after '#' (pre ++ tail) else []) = c := by
  rcases ht with ⟨rfl, rfl⟩ | ⟨rfl, hc, _⟩
  · rw [List.append_nil]
    exact ⟨before_none hp, by rw [if_neg (by simpa using hp)]⟩
  · refine ⟨before_app hp, ?_⟩
    rw [if_pos (by simp), after_app hp]

theorem word_head {v : Str} (h : Word v) : ∃ x xs, v = x :: xs ∧ isSpace x = false ∧ x ≠ '#' := by
  obtain ⟨x, xs, e⟩ := List.exists_cons_of_ne_nil h.1
  exact ⟨x, xs, e, h.2 x (by rw [e]; exact List.mem_cons_self ..)⟩

/-- The line satisfies the services check. -/
def LineOk (ty : DefType) : Line → Prop
  | .define _ vs _ => PortsOk ty vs
  | _ => True

theorem parseLine_blank {ty : DefType} {st : State} {l s : Str} (ha : Around l s) (hk : IsLine s .blank) :
    parseLine ty st l = .ok st := by
  obtain ⟨a, b, ha, hb, rfl, hlast⟩ := ha
  unfold parseLine
  cases hk with
  | empty => rw [strip_around ha hb (by simp) hlast]; rfl
  | @comment s =>
    rw [strip_around ha hb (by intro x hx; simp at hx; subst hx; exact hash_notSpace) hlast]; rfl

theorem parseLine_define {ty : DefType} {st : State} {d o : Defs} (h : Weak ty st d o) {l s : Str} {n vs c}
    (ha : Around l s) (hk : IsLine s (.define n vs c)) (ho : LineOk ty (.define n vs c)) :
    (n ∈ keys d → parseLine ty st l = .error (.raised "NamespaceCollisionError")) ∧
    (n ∉ keys d → ∃ st', parseLine ty st l = .ok st' ∧ Good ty st' (d ++ [(n, vs.map (itemText c))]) o) := by
  obtain ⟨a, b, ha, hb, rfl, hlast⟩ := ha
  unfold parseLine
  cases hk with
  | @define n sp body tail vs c hn hsp hv ht =>
    obtain ⟨x, xs, hx, hx1, hx2⟩ := word_head hn.1
    rw [strip_around ha hb (by intro y hy; rw [hx] at hy; simp at hy; subst hy; exact hx1) hlast]
    have hne : ¬ (((n ++ (sp ++ '=' :: (body ++ tail))).isEmpty ||
        (n ++ (sp ++ '=' :: (body ++ tail))).head? == some '#') = true) := by
      rw [hx]; simp [hx2]
    rw [if_neg hne]
    have hpre : '#' ∉ n ++ (sp ++ '=' :: body) := by
      simp only [List.mem_append, List.mem_cons, not_or]
      exact ⟨fun hh => (hn.1.2 _ hh).2 rfl, blank_noHash hsp, by decide, vals_noHash hv⟩
    have hassoc : n ++ (sp ++ '=' :: (body ++ tail)) = (n ++ (sp ++ '=' :: body)) ++ tail := by simp
    obtain ⟨t1, t2⟩ := tail_noHash hpre ht
    rw [hassoc]
    dsimp only
    rw [t1, t2]
    have hsplit : splitOn '=' (n ++ (sp ++ '=' :: body)) = [n ++ sp, body] := by
      rw [← List.append_assoc, splitOn_app (by simp [hn.2, blank_noEq hsp]), splitOn_none (vals_noEq hv)]
    rw [hsplit]
    have hstrip : strip (n ++ sp) = n := by
      have := strip_around (a := []) (s := n) (b := sp) (by intro _ h; cases h) hsp
        (by intro y hy; rw [hx] at hy; simp at hy; subst hy; exact hx1)
        (by intro y hy; exact (hn.1.2 y (List.mem_of_getLast? hy)).1)
      simpa using this
    simp only [hstrip]
    have hs := startDef_good h (n := n) hv hn.1.1 ho
    split at hs
    next hin =>
      rw [hs]
      exact ⟨fun _ => rfl, fun h => absurd hin h⟩
    next hin =>
      refine ⟨fun h => absurd h hin, fun _ => ?_⟩
      obtain ⟨st', e, g⟩ := hs
      rw [e]
      refine ⟨_, rfl, ?_⟩
      rw [words_vals hv]
      have := foldl_good (vs := vs) (c := c) g
      rwa [extendLast_snoc, List.nil_append] at this

theorem parseLine_cont {ty : DefType} {st : State} {d o : Defs} (h : Good ty st d o) {l s : Str} {vs c}
    (ha : Around l s) (hk : IsLine s (.cont vs c)) :
    ∃ st', parseLine ty st l = .ok st' ∧ Good ty st' (extendLast d (vs.map (itemText c))) o := by
  obtain ⟨a, b, ha, hb, rfl, hlast⟩ := ha
  unfold parseLine
  cases hk with
  | @cont v rest tail vs c hw he hr hv ht =>
    obtain ⟨x, xs, hx, hx1, hx2⟩ := word_head hw
    rw [strip_around ha hb (by intro y hy; rw [hx] at hy; simp at hy; subst hy; exact hx1) hlast]
    have hne : ¬ (((v ++ (rest ++ tail)).isEmpty || (v ++ (rest ++ tail)).head? == some '#') = true) := by
      rw [hx]; simp [hx2]
    rw [if_neg hne]
    have hvals : Vals (v ++ rest) (v :: vs) :=
      Vals.cons (sp := []) (by intro _ h; cases h) hw he hr hv
    rw [← List.append_assoc]
    obtain ⟨t1, t2⟩ := tail_noHash (vals_noHash hvals) ht
    dsimp only
    rw [t1, t2, splitOn_none (vals_noEq hvals)]
    refine ⟨_, rfl, ?_⟩
    rw [words_vals hvals]
    exact foldl_good h

theorem parseLines_define {ty : DefType} {ls : List Str} {ks : List Line} {st : State} {d o : Defs}
    (h : Weak ty st d o) {l s : Str} {n vs c} (ha : Around l s) (hk : IsLine s (.define n vs c))
    (hf : IsFile ls ks) (ho : ∀ k ∈ Line.define n vs c :: ks, LineOk ty k)
    (rec : ∀ {st : State} {d : Defs}, Good ty st d o →
      ((lineNames ks).Nodup ∧ (∀ n ∈ lineNames ks, n ∉ keys d) →
        ∃ st', parseLines ty st ls = .ok st' ∧ Good ty st' (meaning d ks) o) ∧
      (¬ ((lineNames ks).Nodup ∧ (∀ n ∈ lineNames ks, n ∉ keys d)) →
        parseLines ty st ls = .error (.raised "NamespaceCollisionError"))) :
    ((lineNames (.define n vs c :: ks)).Nodup ∧ (∀ m ∈ lineNames (.define n vs c :: ks), m ∉ keys d) →
      ∃ st', parseLines ty st (l :: ls) = .ok st' ∧ Good ty st' (meaning d (.define n vs c :: ks)) o) ∧
    (¬ ((lineNames (.define n vs c :: ks)).Nodup ∧ (∀ m ∈ lineNames (.define n vs c :: ks), m ∉ keys d)) →
      parseLines ty st (l :: ls) = .error (.raised "NamespaceCollisionError")) := by
  obtain ⟨h1, h2⟩ := parseLine_define h ha hk (ho _ (List.mem_cons_self ..))
  show (_ → ∃ st', (parseLine ty st l >>= fun st' => parseLines ty st' ls) = _ ∧ _) ∧
    (_ → (parseLine ty st l >>= fun st' => parseLines ty st' ls) = _)
  rcases Classical.em (n ∈ keys d) with hin | hin
  · rw [h1 hin]
    refine ⟨fun hh => absurd hin (hh.2 n (by simp [lineNames])), fun _ => rfl⟩
  · obtain ⟨st', e, g⟩ := h2 hin
    rw [e]
    have ih := rec g
    have hiff : ((lineNames ks).Nodup ∧ ∀ m ∈ lineNames ks, m ∉ keys (d ++ [(n, vs.map (itemText c))])) ↔
        ((lineNames (.define n vs c :: ks)).Nodup ∧
          ∀ m ∈ lineNames (.define n vs c :: ks), m ∉ keys d) := by
      simp only [lineNames, List.nodup_cons, List.mem_cons, keys, List.map_append, List.map_cons, List.map_nil,
        List.mem_append, List.not_mem_nil, or_false, not_or]
      constructor
      · rintro ⟨a1, a2⟩
        refine ⟨⟨fun hh => (a2 n hh).2 rfl, a1⟩, ?_⟩
        rintro m (rfl | hm)
        · exact hin
        · exact (a2 m hm).1
      · rintro ⟨⟨a1, a2⟩, a3⟩
        refine ⟨a2, fun m hm => ⟨a3 m (.inr hm), ?_⟩⟩
        rintro rfl
        exact a1 hm
    rw [hiff] at ih
    exact ih

theorem parseLines_good {ty : DefType} : ∀ {ls : List Str} {ks : List Line} {st : State} {d o : Defs},
    Good ty st d o → IsFile ls ks → (∀ k ∈ ks, LineOk ty k) →
    ((lineNames ks).Nodup ∧ (∀ n ∈ lineNames ks, n ∉ keys d) →
      ∃ st', parseLines ty st ls = .ok st' ∧ Good ty st' (meaning d ks) o) ∧
    (¬ ((lineNames ks).Nodup ∧ (∀ n ∈ lineNames ks, n ∉ keys d)) →
      parseLines ty st ls = .error (.raised "NamespaceCollisionError"))
  | _, _, st, d, o, h, .nil, _ => by
    refine ⟨fun _ => ⟨st, rfl, h⟩, fun hh => absurd ⟨by simp [lineNames], by simp [lineNames]⟩ hh⟩
  | l :: ls, k :: ks, st, d, o, h, .cons ha hk hf, ho => by
    have ho' : ∀ k ∈ ks, LineOk ty k := fun k hk => ho k (List.mem_cons_of_mem _ hk)
    show (_ → ∃ st', (parseLine ty st l >>= fun st' => parseLines ty st' ls) = _ ∧ _) ∧
      (_ → (parseLine ty st l >>= fun st' => parseLines ty st' ls) = _)
    cases k with
    | blank =>
      rw [parseLine_blank ha hk]
      exact parseLines_good (ks := ks) h hf ho'
    | cont vs c =>
      obtain ⟨st', e, g⟩ := parseLine_cont h ha hk
      rw [e]
      have ih := parseLines_good g hf ho'
      have hkeys : keys (extendLast d (vs.map (itemText c))) = keys d := by
        rcases Classical.em (d = []) with rfl | hd
        · rfl
        · obtain ⟨d0, e, rfl⟩ : ∃ d0 e, d = d0 ++ [e] := ⟨_, _, (List.dropLast_concat_getLast hd).symm⟩
          rw [extendLast_snoc]
          simp [keys]
      rw [hkeys] at ih
      exact ih
    | define n vs c => exact parseLines_define h.weak ha hk hf ho (fun g => parseLines_good g hf ho')

theorem parseLines_weak {ty : DefType} : ∀ {ls : List Str} {ks : List Line} {st : State} {d o : Defs},
    Weak ty st d o → StartsDef ks → IsFile ls ks → (∀ k ∈ ks, LineOk ty k) →
    ((lineNames ks).Nodup ∧ (∀ n ∈ lineNames ks, n ∉ keys d) →
      ∃ st', parseLines ty st ls = .ok st' ∧ Weak ty st' (meaning d ks) o) ∧
    (¬ ((lineNames ks).Nodup ∧ (∀ n ∈ lineNames ks, n ∉ keys d)) →
      parseLines ty st ls = .error (.raised "NamespaceCollisionError"))
  | _, _, st, d, o, h, _, .nil, _ => by
    refine ⟨fun _ => ⟨st, rfl, h⟩, fun hh => absurd ⟨by simp [lineNames], by simp [lineNames]⟩ hh⟩
  | l :: ls, k :: ks, st, d, o, h, hs, .cons ha hk hf, ho => by
    have ho' : ∀ k ∈ ks, LineOk ty k := fun k hk => ho k (List.mem_cons_of_mem _ hk)
    cases k with
    | blank =>
      show (_ → ∃ st', (parseLine ty st l >>= fun st' => parseLines ty st' ls) = _ ∧ _) ∧
        (_ → (parseLine ty st l >>= fun st' => parseLines ty st' ls) = _)
      rw [parseLine_blank ha hk]
      exact parseLines_weak (ks := ks) h hs hf ho'
    | cont vs c => exact hs.elim
    | define n vs c =>
      obtain ⟨h1, h2⟩ := parseLines_define h ha hk hf ho (fun g => parseLines_good g hf ho')
      refine ⟨fun hh => ?_, h2⟩
      obtain ⟨st', e, g⟩ := h1 hh
      exact ⟨st', e, g.weak⟩

theorem good_init (ty : DefType) : Good ty {} [] [] := by
  refine ⟨?_, by simp [keys], .inl ⟨rfl, rfl⟩, ?_⟩ <;> cases ty <;> rfl

end Naming
end Verif
