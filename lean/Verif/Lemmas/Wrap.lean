import Verif.Model.Wrap
import Verif.Spec.Wrap
import Verif.Lemmas.SimplePrint
import Verif.Lemmas.JuniperComment

namespace Verif.Wrap
open Verif Verif.Spec Verif.Spec.Wrapped
open Verif.SimpleL (splitOn_parts)
open Verif.Lemmas.JuniperCommentL (infix_strip)

/-! ### what a match covers -/

theorem takeWhile_le {p : Char → Bool} (s : Str) : (s.takeWhile p).length ≤ s.length := by
  induction s with
  | nil => simp
  | cons c cs ih => rw [List.takeWhile_cons]; split <;> simp; omega

theorem take_takeWhile {p : Char → Bool} (s : Str) : s.take (s.takeWhile p).length = s.takeWhile p := by
  induction s with
  | nil => simp
  | cons c cs ih =>
    rw [List.takeWhile_cons]
    split
    · simp [ih]
    · simp

theorem all_take_takeWhile {p : Char → Bool} : ∀ {s : Str} {k : Nat}, k ≤ (s.takeWhile p).length → ∀ c ∈ s.take k, p c = true
  | [], k, _ => by simp
  | d :: ds, 0, _ => by simp
  | d :: ds, k + 1, h => by
    rw [List.takeWhile_cons] at h
    split at h
    next hd =>
      intro c hc
      rw [List.take_succ_cons] at hc
      rcases List.mem_cons.1 hc with rfl | hc
      · exact hd
      · exact all_take_takeWhile (s := ds) (k := k) (by simpa using h) c hc
    next => simp at h

theorem break_takeWhile (s : Str) : atBreak (s.drop (s.takeWhile ink).length) = true := by
  induction s with
  | nil => rfl
  | cons c cs ih =>
    rw [List.takeWhile_cons]
    split
    · simpa using ih
    next h => simpa [atBreak, ink] using h

theorem upTo_some : ∀ {m : Nat} {s : Str} {k : Nat}, upTo m s = some k →
    1 ≤ k ∧ k ≤ m ∧ k ≤ s.length ∧ '\n' ∉ s.take k ∧ atBreak (s.drop k) = true
  | 0, _, _, h => nomatch h
  | m + 1, [], k, h => nomatch h
  | m + 1, c :: cs, k, h => by
    rw [upTo] at h
    split at h
    next => exact nomatch h
    next hc =>
      split at h
      next j hj =>
        obtain ⟨h1, h2, h3, h4, h5⟩ := upTo_some hj
        cases h
        refine ⟨by omega, by omega, by simp; omega, ?_, by simpa using h5⟩
        rw [List.take_succ_cons]
        intro h
        rcases List.mem_cons.1 h with h | h
        · exact hc h.symm
        · exact h4 h
      next =>
        split at h
        next hb =>
          cases h
          refine ⟨by omega, by omega, by simp, ?_, by simpa using hb⟩
          simp
          exact fun h => hc h.symm
        next => exact nomatch h

theorem upTo_exists : ∀ {m : Nat} {s : Str} {j : Nat}, 1 ≤ j → j ≤ m → j ≤ s.length → '\n' ∉ s.take j → atBreak (s.drop j) = true →
    ∃ k, upTo m s = some k
  | 0, _, j, h1, h2, _, _, _ => by omega
  | m + 1, [], j, h1, _, h3, _, _ => by simp at h3; omega
  | m + 1, c :: cs, 0, h1, _, _, _, _ => by omega
  | m + 1, c :: cs, j + 1, _, h2, h3, h4, h5 => by
    rw [List.take_succ_cons] at h4
    have hc : c ≠ '\n' := fun e => h4 (by simp [e])
    rw [upTo, if_neg hc]
    cases hu : upTo m cs with
    | some k => exact ⟨_, rfl⟩
    | none =>
      cases j with
      | zero => exact ⟨1, by simpa using h5⟩
      | succ j =>
        obtain ⟨k, hk⟩ := upTo_exists (m := m) (s := cs) (j := j + 1) (by omega) (by omega) (by simpa using h3)
          (fun h => h4 (List.mem_cons_of_mem _ h)) (by simpa using h5)
        rw [hu] at hk
        exact nomatch hk

theorem upTo_full : ∀ {m : Nat} {q r : Str}, q ≠ [] → q.length ≤ m → '\n' ∉ q → (r = [] ∨ r.head? = some '\n') →
    upTo m (q ++ r) = some q.length
  | _, [], _, h, _, _, _ => absurd rfl h
  | 0, _ :: _, _, _, h, _, _ => by simp at h
  | m + 1, [c], r, _, _, h3, h4 => by
    have hc : c ≠ '\n' := fun e => h3 (by simp [e])
    have hn : upTo m r = none := by
      cases m with
      | zero => rfl
      | succ m =>
        rcases h4 with rfl | h4
        · rfl
        · cases r with
          | nil => rfl
          | cons d ds =>
            have : d = '\n' := by simpa using h4
            rw [upTo, if_pos this]
    have hb : atBreak r = true := by
      rcases h4 with rfl | h4
      · rfl
      · cases r with
        | nil => rfl
        | cons d ds =>
          have : d = '\n' := by simpa using h4
          rw [this]; rfl
    show upTo (m + 1) (c :: r) = _
    rw [upTo, if_neg hc, hn]
    simp [hb]
  | m + 1, c :: d :: q, r, _, h2, h3, h4 => by
    have hc : c ≠ '\n' := fun e => h3 (by simp [e])
    have ih := upTo_full (m := m) (q := d :: q) (r := r) (by simp) (by simpa using h2) (fun h => h3 (List.mem_cons_of_mem _ h)) h4
    show upTo (m + 1) (c :: ((d :: q) ++ r)) = _
    rw [upTo, if_neg hc, ih]
    simp

theorem solid_nl {s : Str} (h : ∀ c ∈ s, ink c = true) : '\n' ∉ s := fun hm => by
  have := h _ hm
  revert this
  decide

theorem matchAt_some {n run : Nat} {s : Str} {k : Nat} (hn : 1 ≤ n) (h : matchAt n run s = some k) :
    1 ≤ k ∧ k ≤ n ∧ k ≤ s.length ∧ '\n' ∉ s.take k ∧ (∃ c, s.head? = some c ∧ ink c = true) := by
  have head : ∀ {j : Nat}, j + 1 ≤ (s.takeWhile ink).length → ∃ c, s.head? = some c ∧ ink c = true := by
    intro j hj
    cases s with
    | nil => simp at hj
    | cons c cs =>
      rw [List.takeWhile_cons] at hj
      split at hj
      next hc => exact ⟨c, rfl, hc⟩
      next => simp at hj
  unfold matchAt at h
  split at h
  next j hj =>
    cases h
    unfold chunk at hj
    split at hj
    next hl =>
      cases hj
      have := takeWhile_le (p := ink) s
      exact ⟨hn, by omega, by omega, solid_nl (all_take_takeWhile (by omega)), head hl⟩
    next => exact nomatch hj
  next hc =>
    have hle : (s.takeWhile ink).length ≤ n := by
      unfold chunk at hc
      split at hc
      next => exact nomatch hc
      next h => omega
    split at h
    next j hj =>
      cases h
      unfold leftover at hj
      split at hj
      next hl =>
        cases hj
        have h1 : 1 ≤ (s.takeWhile ink).length := List.length_pos_iff.2 hl.2
        exact ⟨h1, hle, takeWhile_le s, solid_nl (all_take_takeWhile (by omega)), head (j := 0) (by omega)⟩
      next => exact nomatch hj
    next =>
      cases s with
      | nil => exact nomatch h
      | cons c cs =>
        rw [phrase] at h
        split at h
        next hi =>
          rw [Option.map_eq_some_iff] at h
          obtain ⟨j, hj, rfl⟩ := h
          obtain ⟨h1, h2, h3, h4, _⟩ := upTo_some hj
          refine ⟨by omega, by omega, by simpa using h3, ?_, c, rfl, hi⟩
          rw [List.take_succ_cons]
          intro hm
          rcases List.mem_cons.1 hm with e | hm
          · rw [← e] at hi; revert hi; decide
          · exact h4 hm
        next => exact nomatch h

theorem findAll_cons {n f run : Nat} {c : Char} {cs : Str} : findAll n (f + 1) run (c :: cs) =
    match matchAt n run (c :: cs) with
    | some k => (c :: cs).take k :: findAll n f (runAfter run ((c :: cs).take k)) ((c :: cs).drop k)
    | none => findAll n f (runAfter run [c]) cs := by
  rw [findAll, if_neg (by simp)]
  rfl

theorem findAll_mem {n : Nat} (hn : 1 ≤ n) : ∀ {f run : Nat} {s p : Str}, p ∈ findAll n f run s →
    1 ≤ p.length ∧ p.length ≤ n ∧ '\n' ∉ p ∧ ∃ c, p.head? = some c ∧ ink c = true
  | 0, _, _, _, h => nomatch h
  | f + 1, _, [], _, h => nomatch h
  | f + 1, run, c :: cs, p, h => by
    rw [findAll_cons] at h
    split at h
    next k hk =>
      rcases List.mem_cons.1 h with rfl | h
      · obtain ⟨h1, h2, h3, h4, h5⟩ := matchAt_some hn hk
        refine ⟨by rw [List.length_take]; omega, by rw [List.length_take]; omega, h4, ?_⟩
        obtain ⟨d, hd, hi⟩ := h5
        refine ⟨d, ?_, hi⟩
        obtain ⟨k, rfl⟩ : ∃ j, k = j + 1 := ⟨k - 1, by omega⟩
        simpa using hd
      · exact findAll_mem hn h
    next => exact findAll_mem hn h

/-! ### lines of joined pieces -/

theorem joinNl_flat : ∀ {a : Str} {l : List Str}, joinNl (a :: l) = a ++ l.flatMap fun x => '\n' :: x
  | a, [] => by simp [joinNl]
  | a, b :: l => by rw [joinNl, joinNl_flat, List.flatMap_cons]; rfl

theorem infix_join {w : Str} (hw : '\n' ∉ w) : ∀ {ps : List Str}, w ≠ [] → w <:+: joinNl ps → ∃ p ∈ ps, w <:+: p
  | [], hne, h => absurd (List.infix_nil.1 h) hne
  | [a], _, h => ⟨a, by simp, h⟩
  | a :: b :: l, hne, h => by
    rw [joinNl] at h
    obtain ⟨x, y, e⟩ := h
    rw [List.append_assoc] at e
    rcases List.append_eq_append_iff.1 e with ⟨t, e1, e2⟩ | ⟨t, e1, e2⟩
    · -- the word starts in the first piece
      rcases List.append_eq_append_iff.1 e2 with ⟨u, e3, _⟩ | ⟨u, e3, e4⟩
      · exact ⟨a, by simp, x, u, by rw [e1, e3]; simp⟩
      · cases u with
        | nil => exact ⟨a, by simp, x, [], by rw [e1]; rw [List.append_nil] at e3; rw [e3]; simp⟩
        | cons d ds =>
          injection e4 with e4 _
          exact absurd (by rw [e3, ← e4]; simp) hw
    · cases t with
      | nil =>
        cases w with
        | nil => exact absurd rfl hne
        | cons d ds =>
          injection e2 with e2 _
          exact absurd (by rw [e2]; simp) hw
      | cons d ds =>
        injection e2 with _ e2
        obtain ⟨p, hp, hi⟩ := infix_join hw (ps := b :: l) hne ⟨ds, y, by rw [e2]; simp⟩
        exact ⟨p, List.mem_cons_of_mem _ hp, hi⟩

theorem splitOn_infix {s l : Str} (h : l ∈ PyStr.splitOn '\n' s) : l <:+: s ∧ '\n' ∉ l := by
  obtain ⟨v, ls, h1, h2, h3, h4⟩ := splitOn_parts '\n' s
  rw [h1] at h
  rcases List.mem_cons.1 h with rfl | h
  · exact ⟨⟨[], _, by rw [List.nil_append]; exact h2.symm⟩, h3⟩
  · refine ⟨?_, h4 _ h⟩
    obtain ⟨a, b, rfl⟩ := List.append_of_mem h
    rw [h2]
    refine ⟨v ++ a.flatMap (fun l => '\n' :: l) ++ ['\n'], b.flatMap fun l => '\n' :: l, by simp⟩

theorem textLines_mem {t l : Str} (h : l ∈ textLines t) : l <:+: t ∧ '\n' ∉ l := by
  unfold textLines at h
  obtain ⟨x, hx, rfl⟩ := List.mem_map.1 h
  obtain ⟨h1, h2⟩ := splitOn_infix (List.mem_filter.1 hx).1
  have hi : PyStr.strip x <:+: x := infix_strip (List.infix_refl _)
  exact ⟨infix_strip (hi.trans h1), fun hm => h2 (hi.subset hm)⟩

/-! ### nothing lost -/

/-- Every character beside which there is none, given whether there is one before the text. -/
def Paired : Bool → Str → Prop
  | _, [] => True
  | b, c :: cs => (ink c = true → b = true ∨ ∃ d, cs.head? = some d ∧ ink d = true) ∧ Paired (ink c) cs

theorem paired_drop : ∀ {p r : Str} {run : Nat}, Paired (decide (0 < run)) (p ++ r) → Paired (decide (0 < runAfter run p)) r
  | [], _, _, h => h
  | c :: p, r, run, h => by
    show Paired (decide (0 < runAfter (if ink c then run + 1 else 0) p)) r
    refine paired_drop (p := p) ?_
    have := h.2
    by_cases hc : ink c = true
    · simpa [hc] using this
    · simpa [hc] using this

theorem runAfter_solid : ∀ {p : Str} {run : Nat}, (∀ c ∈ p, ink c = true) → runAfter run p = run + p.length
  | [], _, _ => rfl
  | c :: p, run, h => by
    show runAfter (if ink c then run + 1 else 0) p = _
    rw [if_pos (h c (by simp)), runAfter_solid fun d hd => h d (by simp [hd])]
    simp; omega

theorem visible_append (s t : Str) : visible (s ++ t) = visible s ++ visible t := by simp [visible]

/-- The word goes on only after a full chunk. -/
def Inside (n run : Nat) (s : Str) : Prop := 0 < run → (∃ c, s.head? = some c ∧ ink c = true) → n ≤ run

theorem inside_break {n run : Nat} {s : Str} (h : atBreak s = true) : Inside n run s := by
  rintro _ ⟨c, hc, hi⟩
  cases s with
  | nil => exact nomatch hc
  | cons d ds =>
    cases hc
    simp only [atBreak] at h
    simp [ink, h] at hi

theorem findAll_visible {n : Nat} (hn : 1 ≤ n) : ∀ {f run : Nat} {s : Str}, s.length ≤ f → Paired (decide (0 < run)) s → Inside n run s →
    visible (findAll n f run s).flatten = visible s
  | 0, _, s, hf, _, _ => by cases List.length_eq_zero_iff.1 (Nat.le_zero.1 hf); rfl
  | f + 1, _, [], _, _, _ => rfl
  | f + 1, run, c :: cs, hf, hp, hi => by
    rw [findAll_cons]
    have step : ∀ k, 1 ≤ k → k ≤ (c :: cs).length → Inside n (runAfter run ((c :: cs).take k)) ((c :: cs).drop k) →
        visible ((c :: cs).take k :: findAll n f (runAfter run ((c :: cs).take k)) ((c :: cs).drop k)).flatten = visible (c :: cs) := by
      intro k h1 h2 h3
      rw [List.flatten_cons, visible_append, findAll_visible hn (by simp at hf h2 ⊢; omega)
        (paired_drop (by rw [List.take_append_drop]; exact hp)) h3, ← visible_append, List.take_append_drop]
    by_cases hc : ink c = true
    · -- some match exists, and after it a word goes on only after a chunk
      have hm : ∃ k, matchAt n run (c :: cs) = some k ∧ Inside n (runAfter run ((c :: cs).take k)) ((c :: cs).drop k) := by
        unfold matchAt
        cases h1 : chunk n (c :: cs) with
        | some k =>
          refine ⟨k, rfl, fun _ _ => ?_⟩
          unfold chunk at h1
          split at h1
          next hl =>
            cases h1
            have := takeWhile_le (p := ink) (c :: cs)
            rw [runAfter_solid (all_take_takeWhile (by omega)), List.length_take]
            omega
          next => exact nomatch h1
        | none =>
          have hw : ((c :: cs).takeWhile ink).length ≤ n := by
            unfold chunk at h1
            split at h1
            next => exact nomatch h1
            next => omega
          cases h2 : leftover n run (c :: cs) with
          | some k =>
            refine ⟨k, rfl, inside_break ?_⟩
            unfold leftover at h2
            split at h2
            next hl => cases h2; exact break_takeWhile _
            next => exact nomatch h2
          | none =>
            have hr : run = 0 := by
              refine Classical.byContradiction fun h => ?_
              have := hi (by omega) ⟨c, rfl, hc⟩
              unfold leftover at h2
              rw [if_pos ⟨this, by rw [List.takeWhile_cons, if_pos hc]; simp⟩] at h2
              exact nomatch h2
            obtain ⟨d, hd, hdi⟩ := (hp.1 hc).resolve_left (by simp [hr])
            cases cs with
            | nil => exact nomatch hd
            | cons e es =>
              cases hd
              have hb := break_takeWhile (d :: es)
              rw [List.takeWhile_cons, if_pos hc] at hw
              have hl : 1 ≤ ((d :: es).takeWhile ink).length := by rw [List.takeWhile_cons, if_pos hdi]; simp
              have hle := takeWhile_le (p := ink) (d :: es)
              obtain ⟨k, hk⟩ := upTo_exists (m := n - 1) hl (by simp at hw ⊢; omega) hle
                (solid_nl (all_take_takeWhile (Nat.le_refl _))) hb
              refine ⟨k + 1, by show phrase n (c :: d :: es) = _; rw [phrase, if_pos hc, hk]; rfl, inside_break ?_⟩
              simpa using (upTo_some hk).2.2.2.2
      obtain ⟨k, hk, hk2⟩ := hm
      obtain ⟨h1, _, h3, _⟩ := matchAt_some hn hk
      rw [hk]
      exact step k h1 h3 hk2
    · have hm : matchAt n run (c :: cs) = none := by
        cases h : matchAt n run (c :: cs) with
        | none => rfl
        | some k =>
          obtain ⟨_, _, _, _, d, hd, hdi⟩ := matchAt_some hn h
          cases hd
          exact absurd hdi hc
      rw [hm]
      show visible (findAll n f (runAfter run [c]) cs).flatten = _
      have hr : runAfter run [c] = 0 := by simp [runAfter, hc]
      rw [hr, findAll_visible hn (by simpa using hf) (by simpa [hc] using hp.2) (fun h => absurd h (by omega))]
      have : PyStr.isSpace c = true := by simpa [ink] using hc
      simp [visible, this]

theorem paired_of : ∀ {s a : Str}, NoSingles (a ++ s) → Paired (match a.getLast? with | some d => ink d | none => false) s
  | [], _, _ => trivial
  | c :: cs, a, h => by
    refine ⟨fun hc => ?_, ?_⟩
    · rcases h a c cs rfl (by simpa [ink] using hc) with ⟨d, hd, hdi⟩ | ⟨d, hd, hdi⟩
      · left; rw [hd]; simp [ink, hdi]
      · exact .inr ⟨d, hd, by simp [ink, hdi]⟩
    · have := paired_of (s := cs) (a := a ++ [c]) (by simpa using h)
      simpa using this

theorem visible_joinNl : ∀ ps : List Str, visible (joinNl ps) = visible ps.flatten
  | [] => rfl
  | [a] => by simp [joinNl]
  | a :: b :: l => by
    rw [joinNl, List.flatten_cons, visible_append, visible_append, ← visible_joinNl (b :: l)]
    congr 1

theorem visible_strip (s : Str) : visible (PyStr.strip s) = visible s := by
  obtain ⟨a, b, ha, hb, e⟩ := Port.strip_decomp s
  have hbl : ∀ {t : Str}, Blank t → visible t = [] := by
    intro t ht
    unfold visible
    rw [List.filter_eq_nil_iff]
    intro c hc
    simp [ht c hc]
  conv => rhs; rw [e]
  rw [visible_append, visible_append, hbl ha, hbl hb]
  simp

theorem visible_splitOn (s : Str) : visible (PyStr.splitOn '\n' s).flatten = visible s := by
  obtain ⟨v, ls, h1, h2, _, _⟩ := splitOn_parts '\n' s
  rw [h1]
  conv => rhs; rw [h2]
  rw [List.flatten_cons, visible_append, visible_append]
  congr 1
  rename_i h3 h4
  clear h1 h2 h3 h4
  induction ls with
  | nil => rfl
  | cons l ls ih =>
    rw [List.flatten_cons, List.flatMap_cons, visible_append, ih, visible_append]
    rfl

theorem visible_textLines (t : Str) : visible (textLines t).flatten = visible t := by
  unfold textLines
  rw [← visible_strip t, ← visible_splitOn (PyStr.strip t)]
  generalize PyStr.splitOn '\n' (PyStr.strip t) = ls
  induction ls with
  | nil => rfl
  | cons l ls ih =>
    cases l with
    | nil => simpa using ih
    | cons c l =>
      rw [List.filter_cons_of_pos (by simp), List.map_cons, List.flatten_cons, List.flatten_cons, visible_append, visible_append, ih,
        visible_strip]

/-! ### wrapping again -/

theorem solid_iff {w : Str} : Solid w ↔ ∀ c ∈ w, ink c = true := by
  constructor <;> intro h c hc <;> simpa [ink] using h c hc

theorem shortWords_drop {n : Nat} : ∀ {p r w : Str}, Solid w → ShortWords n (w ++ (p ++ r)) →
    ∃ w', Solid w' ∧ w'.length = runAfter w.length p ∧ ShortWords n (w' ++ r)
  | [], r, w, hw, h => ⟨w, hw, rfl, h⟩
  | c :: p, r, w, hw, h => by
    by_cases hc : ink c = true
    · obtain ⟨w', h1, h2, h3⟩ := shortWords_drop (p := p) (r := r) (w := w ++ [c])
        (by intro d hd
            rcases List.mem_append.1 hd with hd | hd
            · exact hw d hd
            · cases List.mem_singleton.1 hd; simpa [ink] using hc)
        (by simpa using h)
      refine ⟨w', h1, ?_, h3⟩
      rw [h2]
      simp [runAfter, hc]
    · obtain ⟨w', h1, h2, h3⟩ := shortWords_drop (p := p) (r := r) (w := []) (by simp [Solid])
        (fun v hv hs => h v (by
          obtain ⟨x, y, e⟩ := hv
          exact ⟨w ++ c :: x, y, by rw [List.nil_append] at e; rw [List.cons_append, ← e]; simp⟩) hs)
      refine ⟨w', h1, ?_, h3⟩
      rw [h2]
      simp [runAfter, hc]

/-- Without long words all pieces have two characters. -/
theorem findAll_two {n : Nat} : ∀ {f : Nat} {s w p : Str}, Solid w → ShortWords n (w ++ s) →
    p ∈ findAll n f w.length s → 2 ≤ p.length
  | 0, _, _, _, _, _, h => nomatch h
  | f + 1, [], _, _, _, _, h => nomatch h
  | f + 1, c :: cs, w, p, hw, hs, h => by
    rw [findAll_cons] at h
    split at h
    next k hk =>
      rcases List.mem_cons.1 h with rfl | h
      · have hc : chunk n (c :: cs) = none := by
          unfold chunk
          rw [if_neg]
          intro hl
          have := hs ((c :: cs).takeWhile ink) ⟨w, (c :: cs).dropWhile ink, by
            rw [List.append_assoc, List.takeWhile_append_dropWhile]⟩ (solid_iff.2 fun d hd => by
              have := all_take_takeWhile (p := ink) (s := c :: cs) (Nat.le_refl _)
              rw [take_takeWhile] at this
              exact this d hd)
          omega
        have hl : leftover n w.length (c :: cs) = none := by
          unfold leftover
          rw [if_neg]
          rintro ⟨h1, h2⟩
          have := hs (w ++ (c :: cs).takeWhile ink) ⟨[], (c :: cs).dropWhile ink, by
            rw [List.nil_append, List.append_assoc, List.takeWhile_append_dropWhile]⟩ (solid_iff.2 fun d hd => by
              have := all_take_takeWhile (p := ink) (s := c :: cs) (Nat.le_refl _)
              rw [take_takeWhile] at this
              rcases List.mem_append.1 hd with hd | hd
              · exact solid_iff.1 hw d hd
              · exact this d hd)
          have := List.length_pos_iff.2 h2
          simp only [List.length_append] at *
          omega
        unfold matchAt at hk
        rw [hc, hl] at hk
        simp only [phrase] at hk
        split at hk
        next =>
          rw [Option.map_eq_some_iff] at hk
          obtain ⟨j, hj, rfl⟩ := hk
          have := upTo_some hj
          simp
          omega
        next => exact nomatch hk
      · obtain ⟨w', h1, h2, h3⟩ := shortWords_drop (p := (c :: cs).take k) (r := (c :: cs).drop k) hw (by rw [List.take_append_drop]; exact hs)
        rw [← h2] at h
        exact findAll_two h1 h3 h
    next =>
      obtain ⟨w', h1, h2, h3⟩ := shortWords_drop (p := [c]) (r := cs) hw hs
      rw [← h2] at h
      exact findAll_two h1 h3 h

/-- Pieces that are found again. -/
def Piece (n : Nat) (p : Str) : Prop := 2 ≤ p.length ∧ p.length ≤ n ∧ '\n' ∉ p ∧ ∃ c, p.head? = some c ∧ ink c = true

theorem matchAt_piece {n : Nat} {p r : Str} (h : Piece n p) (hr : r = [] ∨ r.head? = some '\n') :
    matchAt n 0 (p ++ r) = some p.length := by
  obtain ⟨h1, h2, h3, c, hc, hi⟩ := h
  cases p with
  | nil => exact nomatch hc
  | cons d q =>
    cases hc
    have hw : ((c :: q ++ r).takeWhile ink).length ≤ (c :: q).length := by
      have : ∀ (x : Str), ((x ++ r).takeWhile ink).length ≤ x.length := by
        intro x
        induction x with
        | nil =>
          rcases hr with rfl | hr
          · simp
          · cases r with
            | nil => simp
            | cons e es =>
              have : e = '\n' := by simpa using hr
              subst this
              rw [List.nil_append, List.takeWhile_cons, if_neg (by decide)]
              simp
        | cons e es ih =>
          rw [List.cons_append, List.takeWhile_cons]
          split <;> simp; omega
      exact this _
    unfold matchAt
    have e1 : chunk n (c :: q ++ r) = none := by
      unfold chunk
      rw [if_neg (by omega)]
    have e2 : leftover n 0 (c :: q ++ r) = none := by
      unfold leftover
      rw [if_neg (by intro hh; omega)]
    rw [e1, e2]
    show phrase n (c :: (q ++ r)) = _
    rw [phrase, if_pos hi, upTo_full (by rintro rfl; simp at h1) (by simp at h2; omega)
      (fun hm => h3 (List.mem_cons_of_mem _ hm)) hr]
    rfl

theorem findAll_again {n : Nat} : ∀ {f : Nat} {ps : List Str}, (∀ p ∈ ps, Piece n p) → (joinNl ps).length ≤ f →
    findAll n f 0 (joinNl ps) = ps
  | 0, [], _, _ => rfl
  | f + 1, [], _, _ => rfl
  | 0, p :: ps, h, hf => by
    have := (h p (by simp)).1
    rw [joinNl_flat] at hf
    simp at hf
    simp [hf.1] at this
  | f + 1, [p], h, hf => by
    have hp := h p (by simp)
    have hm := matchAt_piece (r := []) hp (.inl rfl)
    rw [List.append_nil] at hm
    obtain ⟨h1, _, _, c, hc, _⟩ := hp
    cases p with
    | nil => exact nomatch hc
    | cons d q =>
      show findAll n (f + 1) 0 (d :: q) = _
      rw [findAll_cons, hm]
      simp only [List.take_length, List.drop_length]
      cases f <;> rfl
  | f + 1, p :: p2 :: ps, h, hf => by
    have hp := h p (by simp)
    have hm := matchAt_piece (r := '\n' :: joinNl (p2 :: ps)) hp (.inr rfl)
    obtain ⟨h1, _, _, c, hc, _⟩ := hp
    cases p with
    | nil => exact nomatch hc
    | cons d q =>
      rw [joinNl] at hf ⊢
      show findAll n (f + 1) 0 (d :: (q ++ '\n' :: joinNl (p2 :: ps))) = _
      rw [findAll_cons]
      have hm' : matchAt n 0 (d :: (q ++ '\n' :: joinNl (p2 :: ps))) = some (d :: q).length := hm
      rw [hm']
      have e1 : (d :: (q ++ '\n' :: joinNl (p2 :: ps))).take (d :: q).length = d :: q := by simp
      have e2 : (d :: (q ++ '\n' :: joinNl (p2 :: ps))).drop (d :: q).length = '\n' :: joinNl (p2 :: ps) := by simp
      simp only [e1, e2]
      simp at hf
      obtain ⟨g, rfl⟩ : ∃ g, f = g + 1 := ⟨f - 1, by omega⟩
      have hn : ∀ run, matchAt n run ('\n' :: joinNl (p2 :: ps)) = none := by
        intro run
        have ht : ('\n' :: joinNl (p2 :: ps)).takeWhile ink = [] := by rw [List.takeWhile_cons, if_neg (by decide)]
        unfold matchAt chunk leftover
        rw [ht]
        have hi : ink '\n' = false := by decide
        simp [phrase, hi]
      rw [findAll_cons, hn]
      have hr : ∀ run, runAfter run ['\n'] = 0 := by
        intro run
        show (if ink '\n' then run + 1 else 0) = 0
        rw [if_neg (by decide)]
      rw [hr]
      rw [findAll_again (f := g) (ps := p2 :: ps) (fun x hx => h x (List.mem_cons_of_mem _ hx)) (by omega)]

theorem wrapText_again {n : Nat} (hn : 1 ≤ n) {t : Str} (h : ShortWords n t) : wrapText n (wrapText n t) = wrapText n t := by
  by_cases hl : t.length > n
  · have e : wrapText n t = joinNl (findAll n t.length 0 t) := by rw [wrapText, if_pos hl]
    rw [e]
    unfold wrapText
    split
    · rw [findAll_again (fun p hp => ?_) (Nat.le_refl _)]
      obtain ⟨h1, h2, h3, h4⟩ := findAll_mem hn hp
      exact ⟨findAll_two (w := []) (by simp [Solid]) h hp, h2, h3, h4⟩
    · rfl
  · have e : wrapText n t = t := by rw [wrapText, if_neg hl]
    rw [e, e]

end Verif.Wrap
