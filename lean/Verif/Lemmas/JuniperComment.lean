import Verif.Spec.JuniperComment
import Verif.Model.JuniperComment
import Verif.Lemmas.JuniperConfig
import Verif.Lemmas.Port

/-!
Lemmas about the comments of the Juniper generator.
-/

namespace Verif.Lemmas.JuniperCommentL
open Verif Verif.Spec Verif.Juniper Verif.Spec.Junos Verif.Spec.JunosComment

/-! ### reading -/

theorem scan_inside : ∀ {s : Str}, ¬ ['*', '/'] <:+: s → scan true s = ([], true)
  | [], _ => by simp [scan]
  | c :: s, h => by
    have hs : ¬ ['*', '/'] <:+: s := fun hh => h (List.infix_cons_iff.2 (.inr hh))
    rw [scan.eq_def]
    split
    next => rename_i e _; cases e
    next =>
      rename_i e1 e2
      cases e2
      exact absurd ⟨[], _, rfl⟩ h
    next => rename_i e _; cases e
    next =>
      rename_i e1 e2
      cases e2
      exact scan_inside hs
    next => rename_i e; cases e

theorem scan_close : ∀ {s : Str}, ¬ ['*', '/'] <:+: s → scan true (s ++ ['*', '/']) = ([], false)
  | [], _ => by simp [scan]
  | [c], _ => by
    show scan true (c :: '*' :: '/' :: []) = _
    rw [scan.eq_def]
    split
    next => rename_i e _; cases e
    next =>
      rename_i e1 e2
      injection e2 with e3 e4
      injection e4 with e5 e6
      exact absurd e5 (by decide)
    next => rename_i e _; cases e
    next =>
      rename_i e1 e2
      cases e2
      simp [scan]
    next => rename_i e; cases e
  | c :: d :: s, h => by
    have hs : ¬ ['*', '/'] <:+: d :: s := fun hh => h (List.infix_cons_iff.2 (.inr hh))
    have ih := scan_close hs
    rw [scan.eq_def]
    split
    next => rename_i e _; cases e
    next =>
      rename_i e1 e2
      injection e2 with e3 e4
      injection e4 with e5 e6
      subst e3 e5
      exact absurd ⟨[], s, rfl⟩ h
    next => rename_i e _; cases e
    next =>
      rename_i e1 e2
      injection e2 with e3 e4
      rw [← e4]
      exact ih
    next => rename_i e; cases e

theorem scan_space_out (s : Str) : scan false (' ' :: s) = (' ' :: (scan false s).1, (scan false s).2) := by
  rw [scan.eq_def]; rfl

theorem scan_space_in (s : Str) : scan true (' ' :: s) = scan true s := by
  rw [scan.eq_def]; rfl

theorem scan_spaces_out (s : Str) : ∀ k : Nat,
    scan false (List.replicate k ' ' ++ s) = (List.replicate k ' ' ++ (scan false s).1, (scan false s).2)
  | 0 => rfl
  | k + 1 => by
    rw [List.replicate_succ, List.cons_append, scan_space_out, scan_spaces_out s k]
    rfl

theorem scan_spaces_in (s : Str) : ∀ k : Nat, scan true (List.replicate k ' ' ++ s) = scan true s
  | 0 => rfl
  | k + 1 => by
    rw [List.replicate_succ, List.cons_append, scan_space_in, scan_spaces_in s k]

theorem scan_open (s : Str) : scan false ('/' :: '*' :: s) = scan true s := by
  rw [scan.eq_def]; rfl

theorem blank_spaces (k : Nat) : Blank (List.replicate k ' ') := by
  intro c hc
  rw [List.eq_of_mem_replicate hc]
  decide

/-! ### the lines that `Append` makes -/

/-- The second list is the first one, stripped and indented. -/
inductive Shifted : List Str → List Str → Prop
  | nil : Shifted [] []
  | cons (k : Nat) {l : Str} {ls out : List Str} : Shifted ls out →
    Shifted (l :: ls) ((List.replicate k ' ' ++ PyStr.strip l) :: out)

theorem shifted_of : ∀ {ls : List Str} {c c' : Config}, c.tabstop = 4 → c.initial ≤ c.indent →
    appendLines c ls = .ok c' → ∃ out, c'.lines = c.lines ++ out ∧ Shifted ls out
  | [], c, c', _, _, h => by
    cases h
    exact ⟨[], by simp, .nil⟩
  | l :: ls, c, c', ht, hi, h => by
    unfold appendLines at h
    rw [List.map_cons, appendAll] at h
    cases e : append c l with
    | error x => rw [e] at h; cases h
    | ok d =>
      rw [e] at h
      obtain ⟨k1, k2⟩ := (append_spec c l ht hi).1 d e
      have hd : d.tabstop = 4 := by rw [k2]; exact ht
      have hdi : d.initial ≤ d.indent := by
        rw [k2, depth_one, comments_one]
        simp only
        rcases cl_cases l with ⟨a, _⟩ | ⟨a, _⟩ <;> rcases op_cases l with ⟨b, _⟩ | ⟨b, _⟩ <;>
          rcases bc_cases l with ⟨x, _⟩ | ⟨x, _⟩ <;> rcases ec_cases l with ⟨y, _⟩ | ⟨y, _⟩ <;> omega
      obtain ⟨out, h1, h2⟩ := shifted_of (ls := ls) hd hdi h
      refine ⟨_ :: out, ?_, .cons (c.indent - 4 * cl l).toNat h2⟩
      rw [h1, k2]
      simp

theorem infix_strip {p s : Str} (h : p <:+: PyStr.strip s) : p <:+: s := by
  obtain ⟨a, b, _, _, e⟩ := Port.strip_decomp s
  rw [e]
  obtain ⟨x, y, h⟩ := h
  exact ⟨a ++ x, y ++ b, by rw [← h]; simp⟩

theorem letters_append (s t : Str) : letters (s ++ t) = letters s ++ letters t := by
  simp [letters]

theorem letters_blank {s : Str} (h : Blank s) : letters s = [] := by
  unfold letters
  rw [List.filter_eq_nil_iff]
  intro c hc
  simp [h c hc]

theorem letters_strip (s : Str) : letters (PyStr.strip s) = letters s := by
  obtain ⟨a, b, ha, hb, e⟩ := Port.strip_decomp s
  conv => rhs; rw [e]
  rw [letters_append, letters_append, letters_blank ha, letters_blank hb]
  simp

theorem shifted_letters {ls out : List Str} (h : Shifted ls out) : letters out.flatten = letters ls.flatten := by
  induction h with
  | nil => rfl
  | cons k _ ih =>
    rw [List.flatten_cons, List.flatten_cons, letters_append, letters_append, letters_append, ih, letters_strip,
      letters_blank (blank_spaces k)]
    rfl

theorem shifted_append {as bs out : List Str} (h : Shifted (as ++ bs) out) :
    ∃ o p, out = o ++ p ∧ Shifted as o ∧ Shifted bs p := by
  induction as generalizing out with
  | nil => exact ⟨[], out, rfl, .nil, h⟩
  | cons a as ih =>
    cases h with
    | cons k h =>
      obtain ⟨o, p, rfl, h1, h2⟩ := ih h
      exact ⟨_ :: o, p, rfl, .cons k h1, h2⟩

theorem scanLines_append (b : Bool) (as bs : List Str) :
    scanLines b (as ++ bs) = ((scanLines b as).1 ++ (scanLines (scanLines b as).2 bs).1,
      (scanLines (scanLines b as).2 bs).2) := by
  induction as generalizing b with
  | nil => simp [scanLines]
  | cons a as ih =>
    rw [List.cons_append, scanLines, ih, scanLines]
    simp

theorem scan_mid {ls out : List Str} (h : Shifted ls out) (hn : ∀ l ∈ ls, ¬ ['*', '/'] <:+: l) :
    scanLines true out = ([], true) := by
  induction h with
  | nil => rfl
  | cons k _ ih =>
    rename_i l ls out hs
    have h1 : scan true (List.replicate k ' ' ++ PyStr.strip l) = ([], true) := by
      rw [scan_spaces_in]
      exact scan_inside fun hh => hn l (List.mem_cons_self ..) (infix_strip hh)
    rw [scanLines, h1, ih fun l' hl => hn l' (List.mem_cons_of_mem _ hl)]
    rfl

/-- A comment over several lines. -/
theorem hidden_block {f e r v : Str} {mid out : List Str} (h : Shifted (f :: mid ++ [e]) out)
    (hf : PyStr.strip f = '/' :: '*' :: r) (hr : ¬ ['*', '/'] <:+: r)
    (hm : ∀ l ∈ mid, ¬ ['*', '/'] <:+: l)
    (he : PyStr.strip e = v ++ ['*', '/']) (hv : ¬ ['*', '/'] <:+: v) : Hidden out := by
  rw [List.cons_append] at h
  cases h with
  | cons k h =>
    obtain ⟨o, p, rfl, h1, h2⟩ := shifted_append h
    cases h2 with
    | cons k2 h2 =>
      cases h2
      have a1 : scan false (List.replicate k ' ' ++ PyStr.strip f) = (List.replicate k ' ', true) := by
        rw [scan_spaces_out, hf, scan_open, scan_inside hr]
        simp
      have a2 : scan true (List.replicate k2 ' ' ++ PyStr.strip e) = ([], false) := by
        rw [scan_spaces_in, he, scan_close hv]
      have a3 : scanLines false ((List.replicate k ' ' ++ PyStr.strip f) ::
          (o ++ [List.replicate k2 ' ' ++ PyStr.strip e])) = (List.replicate k ' ', false) := by
        rw [scanLines, a1]
        simp only
        rw [scanLines_append, scan_mid h1 hm]
        simp only
        rw [scanLines, a2]
        simp [scanLines]
      exact ⟨by rw [a3]; exact blank_spaces k, by rw [a3]⟩

/-- A comment on one line. -/
theorem hidden_one {f r : Str} {out : List Str} (h : Shifted [f] out)
    (hf : PyStr.strip f = '/' :: '*' :: (r ++ ['*', '/'])) (hr : ¬ ['*', '/'] <:+: r) : Hidden out := by
  cases h with
  | cons k h =>
    cases h
    have a1 : scan false (List.replicate k ' ' ++ PyStr.strip f) = (List.replicate k ' ', false) := by
      rw [scan_spaces_out, hf, scan_open, scan_close hr]
      simp
    have a3 : scanLines false [List.replicate k ' ' ++ PyStr.strip f] = (List.replicate k ' ', false) := by
      rw [scanLines, a1]
      simp [scanLines]
    exact ⟨by rw [a3]; exact blank_spaces k, by rw [a3]⟩

/-! ### marks -/

theorem has_space {x y : Char} (hx : x ≠ ' ') (s : Str) : has [x, y] (' ' :: s) = has [x, y] s := by
  rw [has]
  have : (x == ' ') = false := by simpa using hx
  simp [List.isPrefixOf, this]

theorem has_spaces {x y : Char} (hx : x ≠ ' ') (s : Str) : ∀ k : Nat, has [x, y] (List.replicate k ' ' ++ s) = has [x, y] s
  | 0 => rfl
  | k + 1 => by rw [List.replicate_succ, List.cons_append, has_space hx, has_spaces hx s k]

theorem has_across {x y : Char} (hx : x ≠ ' ') (hy : y ≠ ' ') : ∀ s r : Str,
    has [x, y] (s ++ ' ' :: r) = (has [x, y] s || has [x, y] r)
  | [], r => by rw [List.nil_append, has_space hx, has]; simp
  | [c], r => by
    show has [x, y] (c :: ' ' :: r) = _
    rw [has, has_space hx]
    have h2 : (y == ' ') = false := by simpa using hy
    simp [has, List.isPrefixOf, h2]
  | c :: d :: s, r => by
    have ih := has_across hx hy (d :: s) r
    have e : has [x, y] (c :: d :: s) = ([x, y].isPrefixOf (c :: d :: s) || has [x, y] (d :: s)) := by rw [has]
    rw [List.cons_append, has, ih, e]
    simp [List.isPrefixOf, Bool.or_assoc]

theorem has_false {p s : Str} : has p s = false ↔ ¬ p <:+: s := by
  rw [← has_iff, Bool.not_eq_true]

/-! ### the pieces -/

theorem cutAt_pos {eol : Nat} (h : 0 < eol) (t : Str) : 0 < cutAt eol t := by
  unfold cutAt
  split
  · split
    · omega
    · exact h
  · exact h

theorem pieces_flatten {eol : Nat} (he : 0 < eol) : ∀ (f : Nat) (t : Str), t.length ≤ f →
    (pieces eol f t).flatten = t
  | 0, t, h => by
    have : t = [] := List.length_eq_zero_iff.1 (by omega)
    rw [this]; rfl
  | f + 1, [], _ => rfl
  | f + 1, c :: cs, h => by
    rw [pieces, List.flatten_cons, pieces_flatten he f]
    · exact List.take_append_drop ..
    · have := cutAt_pos he (c :: cs)
      simp only [List.length_drop, List.length_cons] at *
      omega

theorem infix_piece {eol f : Nat} {t p : Str} (he : 0 < eol) (hl : t.length ≤ f) (h : p ∈ pieces eol f t) : p <:+: t := by
  obtain ⟨a, b, e⟩ := List.append_of_mem h
  refine ⟨a.flatten, b.flatten, ?_⟩
  rw [← pieces_flatten he f t hl, e]
  simp

theorem pieces_ne {eol f : Nat} {t : Str} (h : t ≠ []) : pieces eol (f + 1) t ≠ [] := by
  cases t with
  | nil => exact absurd rfl h
  | cons c cs => rw [pieces]; simp

end Verif.Lemmas.JuniperCommentL
