import Verif.Lemmas.JuniperComment
import Verif.Lemmas.Include

/-!
C171, C172: the comments of capirca/lib/juniper.py.
-/

namespace Verif.Props
open Verif Verif.Spec Verif.Juniper Verif.Spec.Junos
open Verif.Spec.JunosComment (Hidden letters Unmarked Braceless Harmless)
open Verif.Lemmas.JuniperCommentL

/-! ### shape of the lines -/

theorem strip_id {s : Str} (h1 : ∀ x, s.head? = some x → PyStr.isSpace x = false)
    (h2 : ∀ x, s.getLast? = some x → PyStr.isSpace x = false) : PyStr.strip s = s := by
  have := PyStr.strip_around (a := []) (b := []) (s := s) (by intro c hc; cases hc) (by intro c hc; cases hc) h1 h2
  simpa using this

theorem strip_ends (s : Str) : (∀ x, (PyStr.strip s).getLast? = some x → PyStr.isSpace x = false) := by
  intro x hx
  unfold PyStr.strip PyStr.rstrip at hx
  rw [List.getLast?_reverse] at hx
  have := List.head?_dropWhile_not PyStr.isSpace (PyStr.lstrip s).reverse
  rw [hx] at this
  simpa using this

/-- A marked line that does not end the comment. -/
theorem strip_marked {a m t : Str} (ha : Blank a) (hm : m ≠ [])
    (h1 : ∀ x, m.head? = some x → PyStr.isSpace x = false) (h2 : ∀ x, m.getLast? = some x → PyStr.isSpace x = false) :
    ∃ r, PyStr.strip (a ++ m ++ ' ' :: PyStr.strip t) = m ++ r ∧ r <:+: ' ' :: PyStr.strip t := by
  cases e : PyStr.strip t with
  | nil =>
    refine ⟨[], ?_, List.nil_infix⟩
    rw [List.append_assoc, List.append_nil]
    exact PyStr.strip_around ha (by intro c hc; rw [List.mem_singleton.1 hc]; decide) h1 h2
  | cons c cs =>
    refine ⟨' ' :: c :: cs, ?_, List.infix_refl _⟩
    have := PyStr.strip_around (a := a) (s := m ++ ' ' :: c :: cs) (b := []) ha (by intro c hc; cases hc) ?_ ?_
    · simpa using this
    · intro x hx
      refine h1 x ?_
      cases m with
      | nil => exact absurd rfl hm
      | cons _ _ => exact hx
    · intro x hx
      refine strip_ends t x ?_
      rw [e]
      rw [List.getLast?_append] at hx
      simpa [List.getLast?_cons] using hx

/-- A marked line that ends the comment. -/
theorem strip_closed {a m t : Str} (ha : Blank a) (hm : m ≠ [])
    (h1 : ∀ x, m.head? = some x → PyStr.isSpace x = false) :
    PyStr.strip (a ++ m ++ ' ' :: PyStr.strip t ++ [' ', '*', '/']) = m ++ ((' ' :: PyStr.strip t ++ [' ']) ++ ['*', '/']) := by
  have := PyStr.strip_around (a := a) (s := m ++ ((' ' :: PyStr.strip t ++ [' ']) ++ ['*', '/'])) (b := []) ha
    (by intro c hc; cases hc) ?_ ?_
  · simpa using this
  · intro x hx
    refine h1 x ?_
    cases m with
    | nil => exact absurd rfl hm
    | cons _ _ => exact hx
  · intro x hx
    rw [← List.append_assoc, List.getLast?_append] at hx
    simp at hx
    rw [← hx]; decide

theorem closeLast_marked (ind : Nat) : ∀ (t : Str) (ts : List Str) (pre : Str),
    (ts = [] ∧ closeLast (marked ind pre (t :: ts)) = [pre ++ ' ' :: PyStr.strip t ++ [' ', '*', '/']]) ∨
    ∃ ms e, ts = ms ++ [e] ∧ closeLast (marked ind pre (t :: ts)) =
      (pre ++ ' ' :: PyStr.strip t) :: ms.map (fun m => List.replicate ind ' ' ++ ['*', '*'] ++ ' ' :: PyStr.strip m) ++
        [List.replicate ind ' ' ++ ['*', '*'] ++ ' ' :: PyStr.strip e ++ [' ', '*', '/']]
  | t, [], pre => .inl ⟨rfl, rfl⟩
  | t, u :: us, pre => by
    right
    have hc : closeLast (marked ind pre (t :: u :: us)) = (pre ++ ' ' :: PyStr.strip t) ::
        closeLast (marked ind (List.replicate ind ' ' ++ ['*', '*']) (u :: us)) := rfl
    rcases closeLast_marked ind u us (List.replicate ind ' ' ++ ['*', '*']) with ⟨rfl, h⟩ | ⟨ms, e, rfl, h⟩
    · exact ⟨[], u, rfl, by rw [hc, h]; rfl⟩
    · exact ⟨u :: ms, e, rfl, by rw [hc, h]; rfl⟩

theorem unmarked_take {s : Str} (h : Unmarked s) (n : Nat) : Unmarked (s.take n) :=
  ⟨fun hh => h.1 (hh.trans (List.take_prefix ..).isInfix), fun hh => h.2 (hh.trans (List.take_prefix ..).isInfix)⟩

theorem noend_space {s : Str} (h : ¬ ['*', '/'] <:+: s) : ¬ ['*', '/'] <:+: ' ' :: PyStr.strip s := by
  rw [← has_false, has_space (by decide), has_false]
  exact fun hh => h (infix_strip hh)

theorem noend_space2 {s : Str} (h : ¬ ['*', '/'] <:+: s) : ¬ ['*', '/'] <:+: ' ' :: PyStr.strip s ++ [' '] := by
  rw [← has_false, List.cons_append, has_space (by decide), has_across (by decide) (by decide)]
  rw [Bool.or_eq_false_iff]
  exact ⟨has_false.2 fun hh => h (infix_strip hh), by decide⟩

/-- The text of an address comment, as its lines. -/
theorem addressComment_cases {nv : Bool} {base : Nat} {ex : Bool} {text : Str} {ls : List Str}
    (hl : ls = addressComment nv base ex text) (hb : base ≤ 20) :
    ls = [] ∨ (Unmarked text ∧ nv = false ∧ ∃ ind t ts, (t :: ts).flatten = text.take 132 ∧
      (∀ p ∈ t :: ts, p <:+: text.take 132) ∧ ls = closeLast (marked ind [' ', '/', '*'] (t :: ts))) := by
  subst hl
  unfold addressComment
  split
  next => exact .inl rfl
  next hv =>
    split
    next => exact .inl rfl
    next hn =>
      split
      next => exact .inl rfl
      next hm =>
        right
        rw [Bool.or_eq_true, not_or, has_iff, has_iff] at hm
        refine ⟨hm, by simpa using hv, (if ex = true then 21 else 14) + base, ?_⟩
        have he : 0 < 77 - ((if ex = true then 21 else 14) + base) := by split <;> omega
        have hlen : (text.take 132).length ≤ 132 := by simp [List.length_take]; omega
        have hne : text.take 132 ≠ [] := by
          cases text with
          | nil => exact absurd rfl hn
          | cons _ _ => simp
        cases hp : pieces (77 - ((if ex = true then 21 else 14) + base)) 132 (text.take 132) with
        | nil => exact absurd hp (pieces_ne hne)
        | cons t ts =>
          refine ⟨t, ts, ?_, ?_, by simp only; rw [hp]⟩
          · rw [← hp]; exact pieces_flatten he _ _ hlen
          · intro p hpm
            rw [← hp] at hpm
            exact infix_piece he hlen hpm

theorem letters_marked (ind : Nat) : ∀ (t : Str) (ts : List Str) (pre : Str), letters pre = [] →
    letters (closeLast (marked ind pre (t :: ts))).flatten = letters (t :: ts).flatten
  | t, [], pre, hp => by
    have hc : closeLast (marked ind pre [t]) = [pre ++ ' ' :: PyStr.strip t ++ [' ', '*', '/']] := rfl
    rw [hc]
    simp only [List.flatten_cons, List.flatten_nil, List.append_nil]
    rw [letters_append, letters_append, hp, show ' ' :: PyStr.strip t = [' '] ++ PyStr.strip t from rfl, letters_append,
      letters_strip]
    have h1 : letters [' '] = [] := by decide
    have h2 : letters [' ', '*', '/'] = [] := by decide
    rw [h1, h2]; simp
  | t, u :: us, pre, hp => by
    have hc : closeLast (marked ind pre (t :: u :: us)) = (pre ++ ' ' :: PyStr.strip t) ::
        closeLast (marked ind (List.replicate ind ' ' ++ ['*', '*']) (u :: us)) := rfl
    have hq : letters (List.replicate ind ' ' ++ ['*', '*']) = [] := by
      rw [letters_append, letters_blank (blank_spaces ind)]; decide
    have h1 : letters [' '] = [] := by decide
    rw [hc, List.flatten_cons, letters_append, letters_marked ind u us _ hq, letters_append, hp,
      show ' ' :: PyStr.strip t = [' '] ++ PyStr.strip t from rfl, letters_append, letters_strip, h1]
    rw [List.flatten_cons (l := t), letters_append]
    rfl

/-! ### C171 -/

/-- C171, what a reader and the device see: whatever the text of an address, if the lines of its comment are accepted they are hidden from
the device, and they show the first 132 characters of the text, unless comments are switched off or the text has marks of comments itself;
then there are no lines at all. -/
theorem C171_hidden {c c' : Config} {nv ex : Bool} {base : Nat} {text : Str} (ht : c.tabstop = 4)
    (hi : c.initial ≤ c.indent) (hb : base ≤ 20) (h : appendLines c (addressComment nv base ex text) = .ok c') :
    ∃ out, c'.lines = c.lines ++ out ∧ Hidden out ∧
      ((nv = true ∨ ¬ Unmarked text) → out = []) ∧
      (nv = false → Unmarked text → letters out.flatten = letters (text.take 132)) := by
  obtain ⟨out, ho, hs⟩ := shifted_of ht hi h
  refine ⟨out, ho, ?_⟩
  rcases addressComment_cases rfl hb with hn | ⟨hu, hv, ind, t, ts, hfl, hin, hls⟩
  · have : out = [] := by rw [hn] at hs; cases hs; rfl
    subst this
    refine ⟨⟨(fun c hc => nomatch hc), rfl⟩, fun _ => rfl, fun hv hu => ?_⟩
    subst hv
    unfold addressComment at hn
    split at hn
    next hx => cases hx
    next =>
      split at hn
      next he => rw [he]; rfl
      next he =>
        split at hn
        next hm =>
          rw [Bool.or_eq_true, has_iff, has_iff] at hm
          exact absurd hu (fun hu => hm.elim hu.1 hu.2)
        next =>
          exfalso
          simp only at hn
          cases hp : pieces (77 - ((if ex = true then 21 else 14) + base)) 132 (text.take 132) with
          | nil =>
            refine pieces_ne ?_ hp
            cases text with
            | nil => exact absurd rfl he
            | cons _ _ => simp
          | cons t ts =>
            rw [hp] at hn
            rcases closeLast_marked ((if ex = true then 21 else 14) + base) t ts [' ', '/', '*'] with ⟨_, h⟩ | ⟨_, _, _, h⟩ <;>
              (rw [h] at hn; simp at hn)
  · rw [hls] at hs
    have hend : ∀ p ∈ t :: ts, ¬ ['*', '/'] <:+: p := fun p hp hh => (unmarked_take hu 132).2 (hh.trans (hin p hp))
    refine ⟨?_, ?_, fun _ _ => ?_⟩
    · have hsp : ∀ x, ['/', '*'].head? = some x → PyStr.isSpace x = false := by intro x hx; cases hx; decide
      have hsl : ∀ x, ['/', '*'].getLast? = some x → PyStr.isSpace x = false := by intro x hx; cases hx; decide
      have hss : ∀ x, ['*', '*'].head? = some x → PyStr.isSpace x = false := by intro x hx; cases hx; decide
      have hbl : Blank [' '] := by intro c hc; rw [List.mem_singleton.1 hc]; decide
      rcases closeLast_marked ind t ts [' ', '/', '*'] with ⟨rfl, hc⟩ | ⟨ms, e, rfl, hc⟩
      · rw [hc] at hs
        have := strip_closed (a := [' ']) (m := ['/', '*']) (t := t) hbl (by simp) hsp
        exact hidden_one hs this (noend_space2 (hend t (by simp)))
      · rw [hc] at hs
        obtain ⟨r, hr1, hr2⟩ := strip_marked (a := [' ']) (m := ['/', '*']) (t := t) hbl (by simp) hsp hsl
        have he := strip_closed (a := List.replicate ind ' ') (m := ['*', '*']) (t := e) (blank_spaces ind) (by simp) hss
        refine hidden_block (v := ['*', '*'] ++ (' ' :: PyStr.strip e ++ [' '])) hs hr1
          (fun hh => noend_space (hend t (by simp)) (hh.trans hr2)) ?_ (by rw [he]; simp) ?_
        · intro l hl
          obtain ⟨m, hm, rfl⟩ := List.mem_map.1 hl
          rw [← has_false, List.append_assoc, has_spaces (by decide)]
          show has ['*', '/'] ('*' :: '*' :: ' ' :: PyStr.strip m) = false
          have := has_false.2 (noend_space (hend m (by simp [hm])))
          simp [has, List.isPrefixOf] at this ⊢
          exact this
        · have := has_false.2 (noend_space2 (hend e (by simp)))
          rw [← has_false]
          show has ['*', '/'] ('*' :: '*' :: ' ' :: (PyStr.strip e ++ [' '])) = false
          rw [List.cons_append] at this
          simp [has, List.isPrefixOf] at this ⊢
          exact this
    · rintro (h0 | h0)
      · rw [hv] at h0; cases h0
      · exact absurd hu h0
    · rw [shifted_letters hs, letters_marked ind t ts _ (by decide), hfl]

/-! ### what is accepted -/

theorem append_step {c : Config} {l : Str} (ht : c.tabstop = 4) (hi : c.initial ≤ c.indent) (hc : ¬ Closes l)
    (ho : ¬ Opens l) (he : 0 ≤ c.indent - c.initial - ec l) :
    ∃ c', append c l = .ok c' ∧ c'.tabstop = 4 ∧ c'.initial = c.initial ∧ c'.indent = c.indent + bc l - ec l := by
  have h1 : cl l = 0 := by unfold cl; rw [if_neg hc]
  have h2 : op l = 0 := by unfold op; rw [if_neg ho]
  obtain ⟨d, e⟩ := (append_spec c l ht hi).2 (by omega)
  obtain ⟨_, k2⟩ := (append_spec c l ht hi).1 d e
  refine ⟨d, e, by rw [k2]; exact ht, by rw [k2], ?_⟩
  rw [k2, depth_one, comments_one]
  simp only
  omega

theorem appendLines_cons {c d : Config} {l : Str} {ls : List Str} (h : append c l = .ok d) :
    appendLines c (l :: ls) = appendLines d ls := by
  unfold appendLines
  rw [List.map_cons, appendAll, h]
  rfl

/-- A line inside a comment that does not change the indent. -/
def Inert (l : Str) : Prop := ¬ Closes l ∧ ¬ Opens l ∧ has ['/', '*'] l = false ∧ has ['*', '/'] l = false

theorem accept_mid : ∀ {ls : List Str} {c : Config}, c.tabstop = 4 → c.initial ≤ c.indent → (∀ l ∈ ls, Inert l) →
    ∀ rest, ∃ c', appendLines c (ls ++ rest) = appendLines c' rest ∧ c'.tabstop = 4 ∧ c'.initial = c.initial ∧ c'.indent = c.indent
  | [], c, ht, _, _, _ => ⟨c, rfl, ht, rfl, rfl⟩
  | l :: ls, c, ht, hi, h, rest => by
    obtain ⟨h1, h2, h3, h4⟩ := h l (List.mem_cons_self ..)
    have hb : bc l = 0 := by rcases bc_cases l with ⟨h, _⟩ | ⟨_, h⟩ <;> simp_all
    have he : ec l = 0 := by rcases ec_cases l with ⟨h, _⟩ | ⟨_, h⟩ <;> simp_all
    obtain ⟨d, e, d1, d2, d3⟩ := append_step ht hi h1 h2 (by omega)
    obtain ⟨c', e1, e2, e3, e4⟩ := accept_mid (ls := ls) (c := d) d1 (by omega)
      (fun l' hl => h l' (List.mem_cons_of_mem _ hl)) rest
    refine ⟨c', ?_, e2, by omega, by omega⟩
    rw [List.cons_append, appendLines_cons e, e1]

theorem accept_block {f e : Str} {mid : List Str} {c : Config} (ht : c.tabstop = 4) (hi : c.initial ≤ c.indent)
    (f1 : ¬ Closes f) (f2 : ¬ Opens f) (f3 : has ['/', '*'] f = true) (f4 : has ['*', '/'] f = false)
    (hm : ∀ l ∈ mid, Inert l) (e1 : ¬ Closes e) (e2 : ¬ Opens e) (e3 : has ['/', '*'] e = false)
    (e4 : has ['*', '/'] e = true) :
    ∃ c', appendLines c (f :: mid ++ [e]) = .ok c' ∧ c'.indent = c.indent := by
  have hb : bc f = 1 := by rcases bc_cases f with ⟨_, h⟩ | ⟨h, _⟩ <;> simp_all
  have he : ec f = 0 := by rcases ec_cases f with ⟨h, _⟩ | ⟨_, h⟩ <;> simp_all
  have gb : bc e = 0 := by rcases bc_cases e with ⟨h, _⟩ | ⟨_, h⟩ <;> simp_all
  have ge : ec e = 1 := by rcases ec_cases e with ⟨_, h⟩ | ⟨h, _⟩ <;> simp_all
  obtain ⟨d, k, d1, d2, d3⟩ := append_step ht hi f1 f2 (by omega)
  obtain ⟨c1, k1, k2, k3, k4⟩ := accept_mid (c := d) d1 (by omega) hm [e]
  obtain ⟨c2, m1, m2, m3, m4⟩ := append_step k2 (by omega) e1 e2 (by omega)
  refine ⟨c2, ?_, by omega⟩
  rw [List.cons_append, appendLines_cons k, k1, appendLines_cons m1]
  rfl

theorem closes_last {l : Str} : Closes l ↔ l.getLast? = some '}' := by
  constructor
  · rintro ⟨r, rfl⟩; simp
  · intro h
    obtain ⟨r, e⟩ := List.getLast?_eq_some_iff.1 h
    exact ⟨r, e⟩

theorem opens_last {l : Str} (h : Opens l) : l.getLast? = some '{' := by
  obtain ⟨r, rfl⟩ := h; simp

theorem braceless_line {a s : Str} (ha : Braceless a) (h : Braceless s) : ¬ Closes (a ++ s) ∧ ¬ Opens (a ++ s) := by
  have hl : (a ++ s).getLast? ≠ some '{' ∧ (a ++ s).getLast? ≠ some '}' := by
    rw [List.getLast?_append]
    cases e : s.getLast? with
    | none => simpa [Braceless] using ha
    | some x => rw [Braceless, e] at h; simpa using h
  exact ⟨fun hc => hl.2 (closes_last.1 hc), fun ho => hl.1 (opens_last ho)⟩

theorem braceless_mem {s : Str} (h : ∀ c ∈ s, c ≠ '{' ∧ c ≠ '}') : Braceless s :=
  ⟨fun e => (h _ (List.mem_of_getLast? e)).1 rfl, fun e => (h _ (List.mem_of_getLast? e)).2 rfl⟩

theorem has_first (s : Str) : has ['/', '*'] ([' ', '/', '*'] ++ s) = true := by
  rw [has_iff]; exact ⟨[' '], s, by simp⟩

/-- C171, that the comment does not disturb: the lines are accepted and leave the indent as it was. Missing from the full claim: the text
must not have braces (see `C171_refuted_brace`). -/
theorem C171_accepted_partial {c : Config} {nv ex : Bool} {base : Nat} {text : Str} (ht : c.tabstop = 4)
    (hi : c.initial ≤ c.indent) (hb : base ≤ 20) (hbr : ∀ x ∈ text, x ≠ '{' ∧ x ≠ '}') :
    ∃ c', appendLines c (addressComment nv base ex text) = .ok c' ∧ c'.indent = c.indent := by
  rcases addressComment_cases (nv := nv) (base := base) (ex := ex) (text := text) rfl hb with
    hn | ⟨hu, hv, ind, t, ts, hfl, hin, hls⟩
  · rw [hn]; exact ⟨c, rfl, rfl⟩
  · have hu' := unmarked_take hu 132
    have hmem : ∀ p ∈ t :: ts, ∀ x ∈ PyStr.strip p, x ≠ '{' ∧ x ≠ '}' := by
      intro p hp x hx
      obtain ⟨a, b, _, _, e⟩ := Port.strip_decomp p
      have hxp : x ∈ p := by rw [e]; simp [hx]
      exact hbr x (List.mem_of_mem_take ((hin p hp).mem hxp))
    have hno : ∀ p ∈ t :: ts, has ['/', '*'] (PyStr.strip p) = false ∧ has ['*', '/'] (PyStr.strip p) = false := by
      intro p hp
      exact ⟨has_false.2 fun hh => hu'.1 ((infix_strip hh).trans (hin p hp)),
        has_false.2 fun hh => hu'.2 ((infix_strip hh).trans (hin p hp))⟩
    have hlast : ∀ s : Str, ¬ Closes (s ++ [' ', '*', '/']) ∧ ¬ Opens (s ++ [' ', '*', '/']) := fun s =>
      ⟨fun h => by have := closes_last.1 h; simp at this, fun h => by have := opens_last h; simp at this⟩
    rw [hls]
    rcases closeLast_marked ind t ts [' ', '/', '*'] with ⟨rfl, hc⟩ | ⟨ms, e, rfl, hc⟩
    · rw [hc]
      have h3 : has ['/', '*'] ([' ', '/', '*'] ++ ' ' :: PyStr.strip t ++ [' ', '*', '/']) = true := by
        rw [List.append_assoc]; exact has_first _
      have h4 : has ['*', '/'] ([' ', '/', '*'] ++ ' ' :: PyStr.strip t ++ [' ', '*', '/']) = true := by
        rw [has_iff]; exact ⟨[' ', '/', '*'] ++ ' ' :: PyStr.strip t ++ [' '], [], by simp⟩
      have h0 : bc ([' ', '/', '*'] ++ ' ' :: PyStr.strip t ++ [' ', '*', '/']) = 0 := by
        rcases bc_cases ([' ', '/', '*'] ++ ' ' :: PyStr.strip t ++ [' ', '*', '/']) with ⟨h, _⟩ | ⟨_, h⟩
        · exact h
        · rw [h4] at h; simp at h
      have h1 : ec ([' ', '/', '*'] ++ ' ' :: PyStr.strip t ++ [' ', '*', '/']) = 0 := by
        rcases ec_cases ([' ', '/', '*'] ++ ' ' :: PyStr.strip t ++ [' ', '*', '/']) with ⟨h, _⟩ | ⟨_, h⟩
        · exact h
        · rw [h3] at h; simp at h
      obtain ⟨d, k, d1, d2, d3⟩ := append_step (l := [' ', '/', '*'] ++ ' ' :: PyStr.strip t ++ [' ', '*', '/']) ht hi
        (hlast _).1 (hlast _).2 (by omega)
      exact ⟨d, by rw [appendLines_cons k]; rfl, by omega⟩
    · rw [hc]
      have hf := braceless_line (a := [' ', '/', '*', ' ']) (s := PyStr.strip t) ⟨by decide, by decide⟩
        (braceless_mem (hmem t (by simp)))
      refine accept_block ht hi hf.1 hf.2 (has_first _) ?_ ?_ (hlast _).1 (hlast _).2 ?_ ?_
      · have := (hno t (by simp)).2
        show has ['*', '/'] (' ' :: '/' :: '*' :: ' ' :: PyStr.strip t) = false
        rw [has_space (by decide)]
        rw [← has_space (x := '*') (y := '/') (by decide)] at this
        simp [has, List.isPrefixOf] at this ⊢
        exact this
      · intro l hl
        obtain ⟨m, hm, rfl⟩ := List.mem_map.1 hl
        have hb' := braceless_line (a := List.replicate ind ' ' ++ ['*', '*', ' ']) (s := PyStr.strip m)
          ⟨by simp, by simp⟩ (braceless_mem (hmem m (by simp [hm])))
        obtain ⟨n1, n2⟩ := hno m (by simp [hm])
        have hsh : List.replicate ind ' ' ++ ['*', '*'] ++ ' ' :: PyStr.strip m =
            List.replicate ind ' ' ++ ['*', '*', ' '] ++ PyStr.strip m := by simp
        rw [hsh]
        refine ⟨hb'.1, hb'.2, ?_, ?_⟩ <;> rw [List.append_assoc, has_spaces (by decide)]
        · simp only [List.cons_append, List.nil_append]
          rw [← has_space (x := '/') (y := '*') (by decide)] at n1
          simp [has, List.isPrefixOf] at n1 ⊢
          exact n1
        · simp only [List.cons_append, List.nil_append]
          rw [← has_space (x := '*') (y := '/') (by decide)] at n2
          simp [has, List.isPrefixOf] at n2 ⊢
          exact n2
      · obtain ⟨n1, n2⟩ := hno e (by simp)
        rw [List.append_assoc, List.append_assoc, has_spaces (by decide)]
        have : has ['/', '*'] (PyStr.strip e ++ [' ', '*', '/']) = false := by
          rw [has_across (by decide) (by decide), n1]; decide
        rw [← has_space (x := '/') (y := '*') (by decide)] at this
        simp only [List.cons_append, List.nil_append]
        simp [has, List.isPrefixOf] at this ⊢
        exact this
      · rw [has_iff]
        exact ⟨List.replicate ind ' ' ++ ['*', '*'] ++ ' ' :: PyStr.strip e ++ [' '], [], by simp⟩

/-- C171 refuted in full: a long text that is cut behind a closing brace makes the configuration fail. -/
theorem C171_refuted_brace : ∃ text : Str, Unmarked text ∧
    build 12 ([(false, "source-address {".toList)] ++ (addressComment false 12 false text).map (fun l => (false, l)) ++
      [(false, "10.0.0.0/8;".toList), (false, "}".toList)]) = .error (.raised "JuniperIndentationError") := by
  refine ⟨"addresses of the customers in {north, south, west} and some of the others".toList, ⟨?_, ?_⟩, ?_⟩
  · rw [← has_false]; decide +kernel
  · rw [← has_false]; decide +kernel
  · decide +kernel

/-- Non-vacuity for `C171_hidden` and `C171_accepted_partial`. -/
example : addressComment false 12 false "the customers of the northern region and those of the southern".toList =
    [" /* the customers of the northern region and those of".toList, "                          ** the southern */".toList] := by
  decide +kernel

/-! ### C172 -/

theorem inert_starred {l : Str} (h : Unmarked l) (hb : Braceless l) : Inert (['*', '*', ' '] ++ l) := by
  have hl := braceless_line (a := ['*', '*', ' ']) ⟨by decide, by decide⟩ hb
  refine ⟨hl.1, hl.2, ?_, ?_⟩
  · have := has_false.2 h.1
    rw [← has_space (x := '/') (y := '*') (by decide)] at this
    simp only [List.cons_append, List.nil_append]
    simp [has, List.isPrefixOf] at this ⊢
    exact this
  · have := has_false.2 h.2
    rw [← has_space (x := '*') (y := '/') (by decide)] at this
    simp only [List.cons_append, List.nil_append]
    simp [has, List.isPrefixOf] at this ⊢
    exact this

theorem star_block {mid : List Str} {c : Config} (ht : c.tabstop = 4) (hi : c.initial ≤ c.indent) (hm : ∀ l ∈ mid, Inert l) :
    ∃ c' out, appendLines c ([['/', '*']] ++ mid ++ [['*', '/']]) = .ok c' ∧ c'.indent = c.indent ∧
      c'.lines = c.lines ++ out ∧ Hidden out ∧ letters out.flatten = letters mid.flatten := by
  obtain ⟨c', h1, h2⟩ := accept_block (f := ['/', '*']) (e := ['*', '/']) (mid := mid) (c := c) ht hi
    (fun h => by have := closes_last.1 h; simp at this) (fun h => by have := opens_last h; simp at this)
    (by decide) (by decide) hm
    (fun h => by have := closes_last.1 h; simp at this) (fun h => by have := opens_last h; simp at this)
    (by decide) (by decide)
  obtain ⟨out, h3, h4⟩ := shifted_of ht hi h1
  refine ⟨c', out, h1, h2, h3, ?_, ?_⟩
  · exact hidden_block (r := []) (v := []) h4 (by decide) (by simp) (fun l hl => has_false.1 (hm l hl).2.2.2) (by decide) (by simp)
  · rw [shifted_letters h4]
    rw [List.cons_append, List.flatten_cons, List.flatten_append, letters_append, letters_append]
    have h5 : letters ['/', '*'] = [] := by decide
    have h6 : letters [['*', '/']].flatten = [] := by decide
    rw [h5, h6]; simp

theorem letters_lines : ∀ s : Str, letters ((PyStr.splitOn '\n' s).map fun l => ['*', '*', ' '] ++ l).flatten = letters s
  | [] => by decide
  | c :: cs => by
    have ih := letters_lines cs
    have h0 : letters ['*', '*', ' '] = [] := by decide
    rw [PyStr.splitOn]
    split
    next h =>
      have hc : c = '\n' := by simpa using h
      subst hc
      rw [List.map_cons, List.flatten_cons, letters_append, ih]
      have h1 : letters ('\n' :: cs) = letters cs := by
        rw [show '\n' :: cs = ['\n'] ++ cs from rfl, letters_append]
        rfl
      rw [h1, List.append_nil, h0]
      rfl
    next =>
      cases e : PyStr.splitOn '\n' cs with
      | nil =>
        rw [e] at ih
        simp only [List.map_cons, List.map_nil, List.flatten_cons, List.flatten_nil, List.append_nil]
        rw [letters_append, h0, show c :: cs = [c] ++ cs from rfl, letters_append, ← ih]
        simp [letters]
      | cons w ws =>
        rw [e] at ih
        simp only [List.map_cons, List.flatten_cons] at ih ⊢
        rw [letters_append, letters_append, h0] at ih ⊢
        rw [show c :: cs = [c] ++ cs from rfl, letters_append, ← ih, show c :: w = [c] ++ w from rfl, letters_append]
        simp

theorem letters_starred : ∀ cs : List Str, letters (starred cs).flatten = letters cs.flatten
  | [] => rfl
  | c :: cs => by
    have ih := letters_starred cs
    unfold starred at ih ⊢
    rw [List.flatMap_cons, List.flatten_append, letters_append, letters_lines, ih, List.flatten_cons, letters_append]

theorem first_line : ∀ {s w : Str} {ws : List Str}, PyStr.splitOn '\n' s = w :: ws →
    ∃ b, s = w ++ b ∧ (b = [] ∨ b.head? = some '\n')
  | [], w, ws, h => by
    rw [PyStr.splitOn] at h
    obtain ⟨rfl, rfl⟩ := List.cons.inj h
    exact ⟨[], rfl, .inl rfl⟩
  | c :: cs, w, ws, h => by
    rw [PyStr.splitOn] at h
    split at h
    next hc =>
      have hc : c = '\n' := by simpa using hc
      obtain ⟨rfl, rfl⟩ := List.cons.inj h
      exact ⟨c :: cs, rfl, .inr (by rw [hc]; rfl)⟩
    next =>
      split at h
      next e => exact absurd e Verif.splitOn_ne_nil
      next v vs e =>
        obtain ⟨rfl, rfl⟩ := List.cons.inj h
        obtain ⟨b, hb, hb2⟩ := first_line e
        exact ⟨b, by rw [hb]; rfl, hb2⟩

theorem line_split : ∀ {s l : Str}, l ∈ PyStr.splitOn '\n' s → ∃ a b, s = a ++ l ++ b ∧ (b = [] ∨ b.head? = some '\n')
  | [], l, h => by
    cases h with
    | head => exact ⟨[], [], rfl, .inl rfl⟩
    | tail _ h => cases h
  | c :: cs, l, h => by
    rw [PyStr.splitOn] at h
    split at h
    next hc =>
      have hc : c = '\n' := by simpa using hc
      rcases List.mem_cons.1 h with rfl | h
      · exact ⟨[], c :: cs, rfl, .inr (by rw [hc]; rfl)⟩
      · obtain ⟨a, b, rfl, hb⟩ := line_split h
        exact ⟨c :: a, b, rfl, hb⟩
    next =>
      split at h
      next e =>
        exact absurd e Verif.splitOn_ne_nil
      next w ws e =>
        rcases List.mem_cons.1 h with rfl | h
        · obtain ⟨b, he, hb⟩ := first_line e
          exact ⟨[], b, by rw [he]; rfl, hb⟩
        · obtain ⟨a, b, rfl, hb⟩ := line_split (s := cs) (l := l) (by rw [e]; exact List.mem_cons_of_mem _ h)
          exact ⟨c :: a, b, rfl, hb⟩

/-- No mark of a comment in the text, and no brace at the end of one of its lines. -/
theorem inert_lines {cs : List Str} (h : ∀ c ∈ cs, Harmless c) : ∀ l ∈ starred cs, Inert l := by
  intro l hl
  obtain ⟨c, hc, hl⟩ := List.mem_flatMap.1 hl
  obtain ⟨m, hm, rfl⟩ := List.mem_map.1 hl
  obtain ⟨a, b, e, hb⟩ := line_split hm
  have hin : m <:+: c := ⟨a, b, e.symm⟩
  obtain ⟨hu, hbr⟩ := h c hc
  refine inert_starred ⟨fun hh => hu.1 (hh.trans hin), fun hh => hu.2 (hh.trans hin)⟩ ?_
  have := hbr (a ++ m) b e hb
  unfold Braceless at this ⊢
  rw [List.getLast?_append] at this
  cases e2 : m.getLast? with
  | none => simp
  | some x => rw [e2] at this; simpa using this

/-- C172, terms: the comments and the owner of a term are accepted, leave the indent as it was, are hidden from the device and are shown in
full. Missing from the full claim: they must have no marks of comments and no brace at the end of a line (see
`C172_refuted_leak` and `C172_refuted_brace`). -/
theorem C172_term_partial {c : Config} {owner : Option Str} {comments : List Str} (ht : c.tabstop = 4)
    (hi : c.initial ≤ c.indent) (hc : ∀ x ∈ comments, Harmless x)
    (ho : ∀ o, owner = some o → Harmless ("Owner: ".toList ++ o)) :
    ∃ c' out, appendLines c (termComment false owner comments) = .ok c' ∧ c'.indent = c.indent ∧
      c'.lines = c.lines ++ out ∧ Hidden out ∧
      (owner = none ∨ owner = some [] → letters out.flatten = letters comments.flatten) ∧
      (∀ o, owner = some o → o ≠ [] → letters out.flatten = letters (comments.flatten ++ "Owner: ".toList ++ o)) := by
  have key : ∀ cs : List Str, (∀ x ∈ cs, Harmless x) → ∃ c' out,
      appendLines c (if cs = [] then [] else [['/', '*']] ++ starred cs ++ [['*', '/']]) = .ok c' ∧ c'.indent = c.indent ∧
      c'.lines = c.lines ++ out ∧ Hidden out ∧ letters out.flatten = letters cs.flatten := by
    intro cs hcs
    by_cases h0 : cs = []
    · subst h0
      exact ⟨c, [], rfl, rfl, by simp, ⟨(fun c hc => nomatch hc), rfl⟩, rfl⟩
    · rw [if_neg h0]
      obtain ⟨c', out, h1, h2, h3, h4, h5⟩ := star_block ht hi (inert_lines hcs)
      exact ⟨c', out, h1, h2, h3, h4, by rw [h5, letters_starred]⟩
  match owner, ho with
  | none, _ =>
    obtain ⟨c', out, h1, h2, h3, h4, h5⟩ := key comments hc
    refine ⟨c', out, ?_, h2, h3, h4, fun _ => h5, nofun⟩
    rw [← h1]; unfold termComment; simp
  | some [], _ =>
    obtain ⟨c', out, h1, h2, h3, h4, h5⟩ := key comments hc
    refine ⟨c', out, ?_, h2, h3, h4, fun _ => h5, fun o e hne => ?_⟩
    · rw [← h1]; unfold termComment; simp
    · cases e; exact absurd rfl hne
  | some (x :: o), ho =>
    obtain ⟨c', out, h1, h2, h3, h4, h5⟩ := key (comments ++ ["Owner: ".toList ++ x :: o]) (by
      intro y hy
      rcases List.mem_append.1 hy with hy | hy
      · exact hc y hy
      · rw [List.mem_singleton.1 hy]; exact ho _ rfl)
    refine ⟨c', out, ?_, h2, h3, h4, fun h => ?_, fun o' e _ => ?_⟩
    · rw [← h1]; rfl
    · rcases h with h | h <;> cases h
    · cases e
      rw [h5, List.flatten_append]
      simp

/-- C172, filters: the same for the comments before a filter, which show the tags of the repository first. -/
theorem C172_header_partial {c : Config} {comments : List Str} (ht : c.tabstop = 4)
    (hi : c.initial ≤ c.indent) (hc : ∀ x ∈ comments, Harmless x) :
    ∃ c' out, appendLines c (headerComment comments) = .ok c' ∧ c'.indent = c.indent ∧
      c'.lines = c.lines ++ out ∧ Hidden out ∧
      letters out.flatten = "$Id:$$Date:$$Revision:$".toList ++ letters comments.flatten := by
  have hin : ∀ l ∈ starTags ++ [['*', '*']], Inert l := by
    intro l hl
    have h4 : l = "** $Id:$".toList ∨ l = "** $Date:$".toList ∨ l = "** $Revision:$".toList ∨ l = ['*', '*'] := by
      simpa [starTags] using hl
    rcases h4 with rfl | rfl | rfl | rfl <;>
      exact ⟨fun h => absurd (closes_last.1 h) (by decide), fun h => absurd (opens_last h) (by decide), by decide, by decide⟩
  obtain ⟨c', out, h1, h2, h3, h4, h5⟩ := star_block (mid := starTags ++ [['*', '*']] ++ starred comments) ht hi (by
    intro l hl
    rcases List.mem_append.1 hl with hl | hl
    · exact hin l hl
    · exact inert_lines hc l hl)
  refine ⟨c', out, ?_, h2, h3, h4, ?_⟩
  · rw [← h1]; unfold headerComment; simp
  · rw [h5, List.flatten_append, letters_append, letters_starred]
    have : letters (starTags ++ [['*', '*']]).flatten = "$Id:$$Date:$$Revision:$".toList := by decide
    rw [this]

/-- Comments are left out if this is asked for. -/
theorem C172_noverbose (owner : Option Str) (comments : List Str) (c : Config) :
    appendLines c (termComment true owner comments) = .ok c := rfl

/-- C172 refuted in full: a comment can close itself, so that what follows counts for the device. -/
theorem C172_refuted_leak : ∃ (comment : Str) (out : List Str),
    build 12 ((termComment false none [comment]).map fun l => (false, l)) = .ok out ∧
    "term x { then accept; }".toList <:+: (JunosComment.scanLines false out).1 := by
  refine ⟨"for now */ term x { then accept; } /* to be removed".toList, _, rfl, ?_⟩
  rw [← has_iff]
  decide +kernel

/-- C172 refuted in full: a line of a comment that ends with a brace makes the configuration fail, before terms and before filters. -/
theorem C172_refuted_brace : ∃ comment : Str, Unmarked comment ∧
    build 12 ((termComment false none [comment]).map fun l => (false, l)) = .error (.raised "JuniperIndentationError") ∧
    build 0 ((headerComment [comment]).map fun l => (false, l)) = .error (.raised "JuniperIndentationError") := by
  refine ⟨"replaces filter old {".toList, ⟨?_, ?_⟩, ?_, ?_⟩
  · rw [← has_false]; decide
  · rw [← has_false]; decide
  · rfl
  · rfl

/-- Non-vacuity for `C172_term_partial` and `C172_header_partial`. -/
example : Harmless "mail {old} servers\nticket 1234".toList := by
  refine ⟨⟨?_, ?_⟩, ?_⟩
  · rw [← has_false]; decide
  · rw [← has_false]; decide
  · intro a b e hb
    have key : ∀ n < 32, ∀ a b, a = ("mail {old} servers\nticket 1234".toList).take n → b = ("mail {old} servers\nticket 1234".toList).drop n →
        (b = [] ∨ b.head? = some '\n') → a.getLast? ≠ some '{' ∧ a.getLast? ≠ some '}' := by
      intro n hn a b ha hb
      subst ha hb
      revert n
      decide +kernel
    refine key a.length ?_ a b ?_ ?_ hb
    · have := congrArg List.length e
      rw [List.length_append] at this
      have h31 : ("mail {old} servers\nticket 1234".toList).length = 30 := by decide
      omega
    · rw [e]; simp
    · rw [e]; simp

end Verif.Props
