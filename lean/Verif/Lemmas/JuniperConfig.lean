import Verif.Spec.Juniper
import Verif.Lemmas.Cisco

/-!
Lemmas about the configuration builder of the Juniper generator.
-/

namespace Verif
namespace Juniper
open Spec Spec.Junos

theorem endsWith_iff (s l : Str) : endsWith s l = true ↔ ∃ r, l = r ++ s := by
  unfold endsWith
  rw [List.isPrefixOf_iff_prefix, List.reverse_prefix]
  exact ⟨fun ⟨r, h⟩ => ⟨r, h.symm⟩, fun ⟨r, h⟩ => ⟨r, h.symm⟩⟩

theorem has_iff (s : Str) : ∀ l : Str, has s l = true ↔ s <:+: l
  | [] => by
    unfold has
    rw [List.isEmpty_iff, List.infix_nil]
  | c :: cs => by
    unfold has
    rw [Bool.or_eq_true, has_iff s cs, List.isPrefixOf_iff_prefix, List.infix_cons_iff]

theorem opens_iff (l : Str) : endsWith [' ', '{'] l = true ↔ Opens l := endsWith_iff _ _
theorem closes_iff (l : Str) : endsWith ['}'] l = true ↔ Closes l := endsWith_iff _ _
theorem begins_iff (l : Str) : (!has ['*', '/'] l && has ['/', '*'] l) = true ↔ BeginsComment l := by
  rw [Bool.and_eq_true, Bool.not_eq_true', ← Bool.not_eq_true, has_iff, has_iff]
  exact And.comm
theorem ends_iff (l : Str) : (!has ['/', '*'] l && has ['*', '/'] l) = true ↔ EndsComment l := by
  rw [Bool.and_eq_true, Bool.not_eq_true', ← Bool.not_eq_true, has_iff, has_iff]
  exact And.comm

open Classical in
/-- One if the line closes a block. -/
noncomputable def cl (l : Str) : Int := if Closes l then 1 else 0
open Classical in
/-- One if the line opens a block. -/
noncomputable def op (l : Str) : Int := if Opens l then 1 else 0
open Classical in
/-- One if the line begins a comment. -/
noncomputable def bc (l : Str) : Int := if BeginsComment l then 1 else 0
open Classical in
/-- One if the line ends a comment. -/
noncomputable def ec (l : Str) : Int := if EndsComment l then 1 else 0

theorem cl_cases (l : Str) : (cl l = 0 ∧ endsWith ['}'] l = false) ∨ (cl l = 1 ∧ endsWith ['}'] l = true) := by
  unfold cl
  rw [← Bool.not_eq_true, closes_iff]
  by_cases h : Closes l
  · right; simp [h]
  · left; simp [h]

theorem op_cases (l : Str) : (op l = 0 ∧ endsWith [' ', '{'] l = false) ∨ (op l = 1 ∧ endsWith [' ', '{'] l = true) := by
  unfold op
  rw [← Bool.not_eq_true, opens_iff]
  by_cases h : Opens l
  · right; simp [h]
  · left; simp [h]

theorem bc_cases (l : Str) : (bc l = 0 ∧ (!has ['*', '/'] l && has ['/', '*'] l) = false) ∨
    (bc l = 1 ∧ (!has ['*', '/'] l && has ['/', '*'] l) = true) := by
  rw [← Bool.not_eq_true, begins_iff]
  unfold bc
  by_cases h : BeginsComment l
  · right; simp [h]
  · left; simp [h]

theorem ec_cases (l : Str) : (ec l = 0 ∧ (!has ['/', '*'] l && has ['*', '/'] l) = false) ∨
    (ec l = 1 ∧ (!has ['/', '*'] l && has ['*', '/'] l) = true) := by
  rw [← Bool.not_eq_true, ends_iff]
  unfold ec
  by_cases h : EndsComment l
  · right; simp [h]
  · left; simp [h]

theorem depth_nil : depth [] = 0 := rfl
theorem comments_nil : comments [] = 0 := rfl
theorem depth_append (a b : List Str) : depth (a ++ b) = depth a + depth b := by
  unfold depth; rw [List.map_append, List.sum_append]
theorem comments_append (a b : List Str) : comments (a ++ b) = comments a + comments b := by
  unfold comments; rw [List.map_append, List.sum_append]
theorem depth_one (l : Str) : depth [l] = op l - cl l := by
  unfold depth op cl
  simp
theorem comments_one (l : Str) : comments [l] = bc l - ec l := by
  unfold comments bc ec
  simp

theorem closeBrace_eq (c : Config) (l : Str) (ht : c.tabstop = 4) (hi : c.initial ≤ c.indent) :
    closeBrace c l = if c.indent - 4 * cl l < c.initial then .error (.raised "JuniperIndentationError")
      else .ok { c with indent := c.indent - 4 * cl l } := by
  unfold closeBrace
  rcases cl_cases l with ⟨h, h'⟩ | ⟨h, h'⟩
  · rw [h, h', if_neg (by simp), if_neg (by omega)]
    simp
  · rw [h, h', if_pos rfl, ht]
    rfl

theorem closeComment_eq (c : Config) (l : Str) (hi : c.initial ≤ c.indent) :
    closeComment c l = if c.indent - ec l < c.initial then .error (.raised "JuniperIndentationError")
      else .ok { c with indent := c.indent - ec l } := by
  unfold closeComment
  rcases ec_cases l with ⟨h, h'⟩ | ⟨h, h'⟩
  · rw [h, h', if_neg (by simp), if_neg (by omega)]
    simp
  · rw [h, h', if_pos rfl]

theorem openLine_eq (c : Config) (l : Str) (ht : c.tabstop = 4) :
    openLine c l = { c with indent := c.indent + bc l + 4 * op l } := by
  unfold openLine
  rcases bc_cases l with ⟨h, h'⟩ | ⟨h, h'⟩ <;> rcases op_cases l with ⟨k, k'⟩ | ⟨k, k'⟩ <;>
    (cases c; simp only at ht; rw [h, h', k, k']; simp [ht])

/-- What one call does: it succeeds exactly if the indent stays at or right of the initial one. -/
theorem append_spec (c : Config) (l : Str) (ht : c.tabstop = 4) (hi : c.initial ≤ c.indent) :
    (∀ c', append c l = .ok c' →
      0 ≤ c.indent - c.initial - 4 * cl l - ec l ∧
      c' = { c with
        indent := c.indent + 4 * depth [l] + comments [l],
        lines := c.lines ++ [List.replicate (c.indent - 4 * cl l).toNat ' ' ++ PyStr.strip l] }) ∧
    (0 ≤ c.indent - c.initial - 4 * cl l - ec l → ∃ c', append c l = .ok c') := by
  rw [depth_one, comments_one]
  have he : 0 ≤ ec l := by rcases ec_cases l with ⟨h, _⟩ | ⟨h, _⟩ <;> omega
  unfold append
  rw [closeBrace_eq c l ht hi]
  by_cases h1 : c.indent - 4 * cl l < c.initial
  · rw [if_pos h1]
    refine ⟨fun c' h => (by cases h), fun h => ?_⟩
    omega
  · rw [if_neg h1]
    simp only [bind, Except.bind]
    have hc := closeComment_eq (addLine { c with indent := c.indent - 4 * cl l } l) l (by simp only [addLine]; omega)
    by_cases h2 : c.indent - 4 * cl l - ec l < c.initial
    · rw [if_pos (by simpa only [addLine] using h2)] at hc
      rw [hc]
      refine ⟨fun c' h => (by cases h), fun h => ?_⟩
      omega
    · rw [if_neg (by simpa only [addLine] using h2)] at hc
      rw [hc]
      dsimp only
      rw [openLine_eq _ _ (by simpa only [addLine] using ht)]
      refine ⟨fun c' h => ?_, fun _ => ⟨_, rfl⟩⟩
      simp only [Except.ok.injEq] at h
      subst h
      refine ⟨by omega, ?_⟩
      simp only [addLine]
      congr 1
      omega

theorem plain_cons_true (l : Str) (ls : List (Bool × Str)) : plain ((true, l) :: ls) = plain ls := by
  simp [plain]
theorem plain_cons_false (l : Str) (ls : List (Bool × Str)) : plain ((false, l) :: ls) = l :: plain ls := by
  simp [plain]
theorem plain_append (a b : List (Bool × Str)) : plain (a ++ b) = plain a ++ plain b := by
  simp [plain]

theorem depth_cons (l : Str) (ls : List Str) : depth (l :: ls) = depth [l] + depth ls := by
  rw [← depth_append]; rfl
theorem comments_cons (l : Str) (ls : List Str) : comments (l :: ls) = comments [l] + comments ls := by
  rw [← comments_append]; rfl

theorem cl_nonneg (l : Str) : 0 ≤ cl l := by rcases cl_cases l with ⟨h, _⟩ | ⟨h, _⟩ <;> omega
theorem op_nonneg (l : Str) : 0 ≤ op l := by rcases op_cases l with ⟨h, _⟩ | ⟨h, _⟩ <;> omega
theorem bc_nonneg (l : Str) : 0 ≤ bc l := by rcases bc_cases l with ⟨h, _⟩ | ⟨h, _⟩ <;> omega
theorem ec_nonneg (l : Str) : 0 ≤ ec l := by rcases ec_cases l with ⟨h, _⟩ | ⟨h, _⟩ <;> omega

/-- The text of one line, printed after the lines `a` from the given indent on. -/
noncomputable def shown (indent : Int) (a : List (Bool × Str)) (l : Bool × Str) : Str :=
  if l.1 then l.2
  else List.replicate (indent + 4 * (depth (plain a) - cl l.2) + comments (plain a)).toNat ' ' ++ PyStr.strip l.2

/-- What a sequence of calls does. -/
theorem appendAll_spec : ∀ (ls : List (Bool × Str)) (c c' : Config), c.tabstop = 4 → c.initial ≤ c.indent →
    appendAll c ls = .ok c' →
    c'.initial = c.initial ∧ c'.indent = c.indent + 4 * depth (plain ls) + comments (plain ls) ∧
    (∀ a b, ls = a ++ b → c.initial ≤ c.indent + 4 * depth (plain a) + comments (plain a)) ∧
    ∃ out, c'.lines = c.lines ++ out ∧ out.length = ls.length ∧
      ∀ a l b, ls = a ++ l :: b → out[a.length]? = some (shown c.indent a l)
  | [], c, c', _, hi, h => by
    cases h
    refine ⟨rfl, by simp [plain, depth_nil, comments_nil], ?_, [], by simp, rfl, ?_⟩
    · intro a b e
      obtain ⟨rfl, rfl⟩ := List.append_eq_nil_iff.1 e.symm
      simpa [plain, depth_nil, comments_nil] using hi
    · intro a l b e
      cases a <;> cases e
  | (true, l) :: ls, c, c', ht, hi, h => by
    rw [appendAll] at h
    obtain ⟨h1, h2, h3, out, h4, h5, h6⟩ := appendAll_spec ls (appendVerbatim c l) c' ht hi h
    refine ⟨h1, by rw [plain_cons_true]; exact h2, ?_, l :: out, by rw [h4]; simp [appendVerbatim],
      by simp [h5], ?_⟩
    · intro a b e
      cases a with
      | nil => simpa [plain, depth_nil, comments_nil] using hi
      | cons x a =>
        obtain ⟨rfl, rfl⟩ := List.cons.inj e
        rw [plain_cons_true]
        exact h3 a b rfl
    · intro a m b e
      cases a with
      | nil =>
        obtain ⟨rfl, rfl⟩ := List.cons.inj e
        rfl
      | cons x a =>
        obtain ⟨rfl, rfl⟩ := List.cons.inj e
        have := h6 a m b rfl
        simp only [List.length_cons, List.getElem?_cons_succ]
        rw [this]
        unfold shown
        rw [plain_cons_true]
        rfl
  | (false, l) :: ls, c, c', ht, hi, h => by
    rw [appendAll] at h
    obtain ⟨d, e, h⟩ := bind_ok h
    obtain ⟨k1, k2⟩ := (append_spec c l ht hi).1 d e
    have hd : d.tabstop = 4 := by rw [k2]; exact ht
    have hdi : d.indent = c.indent + 4 * depth [l] + comments [l] := by rw [k2]
    have hd0 : d.initial = c.initial := by rw [k2]
    have hd1 : d.initial ≤ d.indent := by
      rw [hdi, hd0, depth_one, comments_one]
      have := op_nonneg l
      have := bc_nonneg l
      omega
    obtain ⟨h1, h2, h3, out, h4, h5, h6⟩ := appendAll_spec ls d c' hd hd1 h
    refine ⟨by rw [h1, hd0], ?_, ?_,
      (List.replicate (c.indent - 4 * cl l).toNat ' ' ++ PyStr.strip l) :: out, ?_, by simp [h5], ?_⟩
    · rw [h2, hdi, plain_cons_false, depth_cons l (plain ls), comments_cons l (plain ls)]
      omega
    · intro a b e
      cases a with
      | nil => simpa [plain, depth_nil, comments_nil] using hi
      | cons x a =>
        obtain ⟨rfl, rfl⟩ := List.cons.inj e
        have := h3 a b rfl
        rw [plain_cons_false, depth_cons, comments_cons]
        rw [hdi, hd0] at this
        omega
    · rw [h4, k2]
      simp
    · intro a m b e
      cases a with
      | nil =>
        obtain ⟨rfl, rfl⟩ := List.cons.inj e
        simp only [List.length_nil, List.getElem?_cons_zero]
        unfold shown
        simp only [Bool.false_eq_true, if_false]
        have : c.indent + 4 * (depth (plain []) - cl l) + comments (plain []) = c.indent - 4 * cl l := by
          simp only [plain, List.filter_nil, List.map_nil, depth_nil, comments_nil]
          omega
        rw [this]
      | cons x a =>
        obtain ⟨rfl, rfl⟩ := List.cons.inj e
        have := h6 a m b rfl
        simp only [List.length_cons, List.getElem?_cons_succ]
        rw [this]
        unfold shown
        rw [plain_cons_false, depth_cons, comments_cons, hdi]
        have : ∀ z : Int, c.indent + 4 * depth [l] + comments [l] + 4 * (depth (plain a) - z) + comments (plain a) =
          c.indent + 4 * (depth [l] + depth (plain a) - z) + (comments [l] + comments (plain a)) := by
          intro z; omega
        rw [this]

/-- A sequence of calls succeeds if no line closes more than is open. -/
theorem appendAll_total : ∀ (ls : List (Bool × Str)) (c : Config), c.tabstop = 4 → c.initial ≤ c.indent →
    (∀ a l b, plain ls = a ++ l :: b →
      0 ≤ c.indent - c.initial + 4 * depth a + comments a - 4 * cl l - ec l) → ∃ c', appendAll c ls = .ok c'
  | [], c, _, _, _ => ⟨c, rfl⟩
  | (true, l) :: ls, c, ht, hi, h => by
    rw [appendAll]
    exact appendAll_total ls (appendVerbatim c l) ht hi (by rw [plain_cons_true] at h; exact h)
  | (false, l) :: ls, c, ht, hi, h => by
    rw [appendAll]
    rw [plain_cons_false] at h
    have h0 := h [] l _ rfl
    rw [depth_nil, comments_nil] at h0
    obtain ⟨d, e⟩ := (append_spec c l ht hi).2 (by omega)
    obtain ⟨k1, k2⟩ := (append_spec c l ht hi).1 d e
    rw [e]
    simp only [bind, Except.bind]
    have hdi : d.indent = c.indent + 4 * depth [l] + comments [l] := by rw [k2]
    have hd0 : d.initial = c.initial := by rw [k2]
    refine appendAll_total ls d (by rw [k2]; exact ht) ?_ ?_
    · rw [hdi, hd0, depth_one, comments_one]
      have := op_nonneg l
      have := bc_nonneg l
      omega
    · intro a m b e
      have := h (l :: a) m b (by rw [e]; rfl)
      rw [depth_cons, comments_cons] at this
      rw [hdi, hd0]
      omega

end Juniper
end Verif
