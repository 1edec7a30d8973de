import Verif.Spec.PolicyText

/-!
The lexer of policy texts: what it does with a text that spells tokens, and that it only skips what it may skip.
-/

namespace Verif
namespace PolicyText
open Spec PyStr

theorem alpha_iff (c : Char) : isAlphaA c = true ↔ c.isAlpha = true := by
  simp [isAlphaA, Char.isAlpha, Char.isUpper, Char.isLower, Char.le_def, or_comm]

theorem digit_iff (c : Char) : isDigit c = true ↔ c.isDigit = true := by
  simp [isDigit, Char.isDigit, Char.le_def]

theorem word_iff (c : Char) : isWord c = true ↔ WordChar c := by
  simp only [isWord, Bool.or_eq_true, alpha_iff, digit_iff, beq_iff_eq, WordChar, Char.isAlphanum]

theorem word_false {c : Char} : isWord c = false ↔ ¬ WordChar c := by
  rw [← word_iff]; simp

theorem name_iff (c : Char) : isName c = true ↔ NameChar c := by
  simp only [isName, Bool.or_eq_true, word_iff, List.contains_iff_mem, NameChar]

theorem ascii_cases {p : Char → Prop} (h : ∀ n, n < 128 → p (Char.ofNat n)) {c : Char} (hc : c.toNat < 128) : p c := by
  have := h c.toNat hc
  rwa [Char.ofNat_toNat] at this

theorem hex_ascii {c : Char} (h : isHex c = true) : c.toNat < 128 := by
  simp only [isHex, isDigit, Bool.or_eq_true, Bool.and_eq_true, decide_eq_true_eq, Char.le_def,
    UInt32.le_iff_toNat_le] at h
  show c.val.toNat < 128
  have e : ('9'.val.toNat = 57) ∧ ('f'.val.toNat = 102) ∧ ('F'.val.toNat = 70) := by decide
  omega

theorem hex_iff (c : Char) : isHex c = true ↔ HexChar c := by
  constructor
  · intro h
    refine ascii_cases (p := fun c => isHex c = true → HexChar c) ?_ (hex_ascii h) h
    unfold HexChar; decide
  · intro h
    have : ∀ c ∈ "0123456789abcdefABCDEF".toList, isHex c = true := by decide
    exact this c h

/-! ### runs -/

theorem run_append {p : Char → Bool} {w s : Str} (hw : ∀ c ∈ w, p c = true) (hs : ∀ c r, s = c :: r → p c = false) :
    run p (w ++ s) = w.length := by
  unfold run
  rw [List.takeWhile_append_of_pos hw]
  cases s with
  | nil => simp
  | cons c r => simp [hs c r rfl]

theorem run_spec (p : Char → Bool) (s : Str) :
    ∃ r, s = s.take (run p s) ++ r ∧ (∀ c ∈ s.take (run p s), p c = true) ∧ (∀ c r', r = c :: r' → p c = false) ∧
      s.drop (run p s) = r := by
  induction s with
  | nil => exact ⟨[], rfl, (by simp), (by simp), rfl⟩
  | cons d s ih =>
    rcases ih with ⟨r, h1, h2, h3, h4⟩
    cases hd : p d with
    | false =>
      have e : run p (d :: s) = 0 := by simp [run, hd]
      rw [e]
      refine ⟨d :: s, rfl, (by simp), ?_, rfl⟩
      intro c r' hh
      cases hh; exact hd
    | true =>
      have e : run p (d :: s) = run p s + 1 := by simp [run, hd]
      rw [e]
      refine ⟨r, ?_, ?_, h3, ?_⟩
      · simp only [List.take_succ_cons, List.cons_append]; rw [← h1]
      · intro c hc
        simp only [List.take_succ_cons, List.mem_cons] at hc
        rcases hc with hc | hc
        · exact hc ▸ hd
        · exact h2 c hc
      · simp only [List.drop_succ_cons]; exact h4

theorem append_split {p : Char → Prop} {a r w s : Str} (h : a ++ r = w ++ s) (ha : ∀ c ∈ a, p c) (hs : Ends p s) :
    ∃ x, w = a ++ x ∧ r = x ++ s := by
  rcases List.append_eq_append_iff.1 h with ⟨x, h1, h2⟩ | ⟨x, h1, h2⟩
  · exact ⟨x, h1, h2⟩
  · cases x with
    | nil => exact ⟨[], (by simpa using h1.symm), (by simpa using h2.symm)⟩
    | cons c x =>
      exact absurd (ha c (by rw [h1]; simp)) (hs c (x ++ r) (by rw [h2]; rfl))

/-! ### classes -/

theorem class_word {d : Str} (h : ClassName d) : ∀ c ∈ d, WordChar c := by
  rcases h with ⟨b, rfl, _, hb⟩ | ⟨x, y, rfl, hx, hy⟩ | rfl | rfl | ⟨x, rfl, hx⟩
  · intro c hc
    rcases List.mem_cons.1 hc with rfl | hc
    · exact (word_iff _).1 rfl
    · rcases hb c hc with rfl | rfl <;> exact (word_iff _).1 rfl
  · intro c hc
    simp only [List.mem_cons, List.not_mem_nil, or_false] at hc hx hy
    rw [← word_iff]
    rcases hc with rfl | rfl | rfl | rfl
    · rfl
    · rfl
    · rcases hx with rfl | rfl | rfl | rfl <;> rfl
    · rcases hy with rfl | rfl | rfl <;> rfl
  · intro c hc
    simp only [List.mem_cons, List.not_mem_nil, or_false] at hc
    rw [← word_iff]
    rcases hc with rfl | rfl <;> rfl
  · intro c hc
    simp only [List.mem_cons, List.not_mem_nil, or_false] at hc
    rw [← word_iff]
    rcases hc with rfl | rfl <;> rfl
  · intro c hc
    simp only [List.mem_cons, List.not_mem_nil, or_false] at hc hx
    rw [← word_iff]
    rcases hc with rfl | rfl | rfl
    · rfl
    · rfl
    · rcases hx with rfl | rfl | rfl | rfl | rfl | rfl | rfl | rfl <;> rfl

theorem class_len {d : Str} (h : ClassName d) (s : Str) : classLen (d ++ s) = some d.length := by
  rcases h with ⟨b, rfl, hl, hb⟩ | ⟨x, y, rfl, hx, hy⟩ | rfl | rfl | ⟨x, rfl, hx⟩
  · have e : (b ++ s).take 6 = b := by rw [← hl, List.take_left]
    have hb' : b.all (fun c => c == '0' || c == '1') = true := by
      rw [List.all_eq_true]; intro c hc
      rcases hb c hc with rfl | rfl <;> rfl
    simp [classLen, e, hl, hb']
  · simp only [List.mem_cons, List.not_mem_nil, or_false] at hx hy
    rcases hx with rfl | rfl | rfl | rfl <;> rcases hy with rfl | rfl | rfl <;> rfl
  · simp [classLen]
  · rfl
  · simp only [List.mem_cons, List.not_mem_nil, or_false] at hx
    rcases hx with rfl | rfl | rfl | rfl | rfl | rfl | rfl | rfl <;> rfl

theorem between_cases {lo hi : Char} {c : Char} (h : lo ≤ c ∧ c ≤ hi) (hh : hi.toNat < 128) : c.toNat < 128 := by
  have := h.2
  rw [Char.le_def, UInt32.le_iff_toNat_le] at this
  exact Nat.lt_of_le_of_lt this hh

theorem class_of_len {s : Str} {n : Nat} (h : classLen s = some n) : ∃ d r, ClassName d ∧ s = d ++ r ∧ d.length = n := by
  unfold classLen at h
  split at h
  · rename_i r
    split at h
    · rename_i hc
      simp only [Bool.and_eq_true, beq_iff_eq, List.all_eq_true, Bool.or_eq_true] at hc
      cases h
      exact ⟨'b' :: r.take 6, r.drop 6, .inl ⟨_, rfl, hc.1, hc.2⟩, (by simp), (by simp [hc.1])⟩
    · split at h
      · rename_i hc
        cases h
        cases r with
        | nil => simp at hc
        | cons e r =>
          simp only [List.head?_cons, beq_iff_eq, Option.some.injEq] at hc
          subst hc
          exact ⟨['b', 'e'], r, .inr (.inr (.inl rfl)), rfl, rfl⟩
      · cases h
  · rename_i d e r
    split at h
    · rename_i hc
      cases h
      simp only [Bool.and_eq_true, decide_eq_true_eq] at hc
      refine ⟨['a', 'f', d, e], r, .inr (.inl ⟨d, e, rfl, ?_, ?_⟩), rfl, rfl⟩
      · have hd := hc.1.1
        exact ascii_cases (p := fun d => '1' ≤ d ∧ d ≤ '4' → d ∈ ['1', '2', '3', '4']) (by decide)
          (between_cases hd (by decide)) hd
      · have he : '1' ≤ e ∧ e ≤ '3' := ⟨hc.1.2, hc.2⟩
        exact ascii_cases (p := fun d => '1' ≤ d ∧ d ≤ '3' → d ∈ ['1', '2', '3']) (by decide)
          (between_cases he (by decide)) he
    · cases h
  · rename_i r
    cases h
    exact ⟨['e', 'f'], r, .inr (.inr (.inr (.inl rfl))), rfl, rfl⟩
  · rename_i d r
    split at h
    · rename_i hc
      cases h
      simp only [Bool.and_eq_true, decide_eq_true_eq] at hc
      refine ⟨['c', 's', d], r, .inr (.inr (.inr (.inr ⟨d, rfl, ?_⟩))), rfl, rfl⟩
      exact ascii_cases (p := fun d => '0' ≤ d ∧ d ≤ '7' → d ∈ ['0', '1', '2', '3', '4', '5', '6', '7']) (by decide)
        (between_cases hc (by decide)) hc
    · cases h
  · cases h

theorem startsWord_iff (s : Str) : startsWord s = false ↔ Ends WordChar s := by
  cases s with
  | nil => exact ⟨(fun _ _ _ h => nomatch h), (fun _ => rfl)⟩
  | cons c r =>
    show isWord c = false ↔ _
    rw [word_false]
    exact ⟨(fun h c' r' e => by cases e; exact h), (fun h => h c r rfl)⟩

theorem dscp_len {d s : Str} (h : ClassName d) (e : Ends (fun c => WordChar c ∨ c = '-') s) :
    dscpLen (d ++ s) = some d.length := by
  have h1 : startsWord s = false := (startsWord_iff s).2 fun c r hh hc => e c r hh (.inl hc)
  have h2 : (s.head? == some '-') = false := by
    cases s with
    | nil => rfl
    | cons c r =>
      have : c ≠ '-' := fun hh => e c r rfl (.inr hh)
      simp [this]
  unfold dscpLen
  rw [class_len h]
  simp [h1, h2]

theorem dscp_of_len {s : Str} {n : Nat} (h : dscpLen s = some n) :
    ∃ d r, ClassName d ∧ s = d ++ r ∧ d.length = n ∧ Ends (fun c => WordChar c ∨ c = '-') r := by
  unfold dscpLen at h
  split at h
  · cases h
  · rename_i m hm
    rcases class_of_len hm with ⟨d, r, hd, rfl, hl⟩
    subst hl
    split at h
    · cases h
    · rename_i hc
      cases h
      simp only [List.drop_left, Bool.or_eq_true, not_or, Bool.not_eq_true] at hc
      refine ⟨d, r, hd, rfl, rfl, ?_⟩
      intro c r' hr hh
      subst hr
      rcases hh with hh | hh
      · exact (startsWord_iff _).1 hc.1 c r' rfl hh
      · subst hh; simp at hc

theorem range_len {d d' s : Str} (h : ClassName d) (h' : ClassName d') (e : Ends WordChar s) :
    rangeLen (d ++ '-' :: (d' ++ s)) = some (d ++ '-' :: d').length := by
  unfold rangeLen
  rw [class_len h]
  simp only [List.drop_left]
  rw [class_len h']
  simp only [List.drop_left, (startsWord_iff s).2 e]
  simp
  omega

theorem range_of_len {s : Str} {n : Nat} (h : rangeLen s = some n) :
    ∃ d d' r, ClassName d ∧ ClassName d' ∧ s = d ++ '-' :: (d' ++ r) ∧ n = (d ++ '-' :: d').length ∧ Ends WordChar r := by
  unfold rangeLen at h
  split at h
  · cases h
  · rename_i m hm
    rcases class_of_len hm with ⟨d, r, hd, rfl, hl⟩
    subst hl
    simp only [List.drop_left] at h
    split at h
    · rename_i r'
      split at h
      · cases h
      · rename_i k hk
        rcases class_of_len hk with ⟨d', r'', hd', rfl, hl'⟩
        subst hl'
        simp only [List.drop_left] at h
        split at h
        · cases h
        · rename_i hc
          cases h
          refine ⟨d, d', r'', hd, hd', rfl, (by simp; omega), (startsWord_iff _).1 (by simpa using hc)⟩
    · cases h

theorem plain_dscp {w s : Str} (p : ¬ LooksDscp w) (hw : ∀ c ∈ w, NameChar c) (e : Ends NameChar s) :
    dscpLen (w ++ s) = none := by
  cases h : dscpLen (w ++ s) with
  | none => rfl
  | some n =>
    exfalso
    rcases dscp_of_len h with ⟨d, r, hd, hs, _, he⟩
    rcases append_split hs.symm (p := NameChar) (fun c hc => .inl (class_word hd c hc)) e with ⟨x, h1, h2⟩
    apply p
    refine .inl ⟨d, x, hd, h1, ?_⟩
    intro c r' hx
    subst hx
    have hn : NameChar c := hw c (by rw [h1]; simp)
    have := he c (r' ++ s) (by rw [h2]; rfl)
    rcases hn with hn | hn
    · exact absurd (.inl hn) this
    · rcases List.mem_cons.1 hn with hn | hn
      · exact absurd (.inr hn) this
      · exact hn

theorem plain_range {w s : Str} (p : ¬ LooksDscp w) (hw : ∀ c ∈ w, NameChar c) (e : Ends NameChar s) :
    rangeLen (w ++ s) = none := by
  cases h : rangeLen (w ++ s) with
  | none => rfl
  | some n =>
    exfalso
    rcases range_of_len h with ⟨d, d', r, hd, hd', hs, _, he⟩
    have hs' : (d ++ '-' :: d') ++ r = w ++ s := by rw [hs]; simp
    rcases append_split hs' (p := NameChar) (by
      intro c hc
      rcases List.mem_append.1 hc with hc | hc
      · exact .inl (class_word hd c hc)
      · rcases List.mem_cons.1 hc with rfl | hc
        · exact .inr (by decide)
        · exact .inl (class_word hd' c hc)) e with ⟨x, h1, h2⟩
    apply p
    refine .inr ⟨d, d', x, hd, hd', (by rw [h1]; simp), ?_⟩
    intro c r' hx
    subst hx
    have hn : NameChar c := hw c (by rw [h1]; simp)
    have := he c (r' ++ s) (by rw [h2]; rfl)
    rcases hn with hn | hn
    · exact absurd hn this
    · exact hn

theorem dscp_not_range {d s : Str} (h : ClassName d) (e : Ends (fun c => WordChar c ∨ c = '-') s) :
    rangeLen (d ++ s) = none := by
  unfold rangeLen
  rw [class_len h]
  simp only [List.drop_left]
  split
  · rename_i r
    exact absurd (.inr rfl) (e '-' r rfl)
  · rfl

/-! ### quoted texts -/

theorem esc_char {c : Char} (h : c ≠ '"') (h' : c ≠ '\\') (seen : Bool) (s : Str) :
    escLen seen (c :: s) = (escLen seen s).map (· + 1) := by
  rw [escLen.eq_def]
  split
  · rename_i hh; cases hh
  · rename_i hh; cases hh; exact absurd rfl h
  · rename_i hh; cases hh; exact absurd rfl h'
  · rename_i hh; cases hh; exact absurd rfl h'
  · rename_i hh; cases hh; rfl

theorem esc_slash {s : Str} (h : ∀ r, s ≠ '"' :: r) (seen : Bool) : escLen seen ('\\' :: s) = none := by
  rw [escLen.eq_def]
  split
  · rename_i hh; cases hh
  · rename_i hh; cases hh
  · rename_i hh; cases hh; exact absurd rfl (h _)
  · rfl
  · rename_i h1 h2 hh; cases hh; exact absurd rfl h2

theorem esc_len_body {body : Str} (h : EscBody body) (s : Str) :
    ∀ seen, escLen seen (body ++ '"' :: s) = if seen = true ∨ '"' ∈ body then some (body.length + 1) else none := by
  induction h with
  | nil => intro seen; simp [escLen]
  | @char c b h h' _ ih =>
    intro seen
    rw [List.cons_append, esc_char h h', ih]
    have e : ('"' ∈ c :: b) ↔ '"' ∈ b := by
      rw [List.mem_cons]; exact ⟨fun x => x.resolve_left fun y => h y.symm, .inr⟩
    simp only [e]
    split <;> simp
  | @quote b _ ih =>
    intro seen
    have : escLen seen ('\\' :: '"' :: (b ++ '"' :: s)) = (escLen true (b ++ '"' :: s)).map (· + 2) := by
      rfl
    show escLen seen ('\\' :: '"' :: (b ++ '"' :: s)) = _
    rw [this, ih]
    simp

theorem esc_of_len_aux (k : Nat) : ∀ {s : Str} {seen n}, s.length ≤ k → escLen seen s = some n →
    ∃ body r, s = body ++ '"' :: r ∧ EscBody body ∧ n = body.length + 1 ∧ (seen = true ∨ '"' ∈ body) := by
  induction k with
  | zero =>
    intro s seen n hk h
    cases s with
    | nil => simp [escLen] at h
    | cons c s => simp at hk
  | succ k ih =>
    intro s seen n hk h
    cases s with
    | nil => simp [escLen] at h
    | cons c s =>
      simp only [List.length_cons] at hk
      rcases Classical.em (c = '"') with rfl | hq
      · have e : escLen seen ('"' :: s) = if seen then some 1 else none := by rw [escLen]
        rw [e] at h
        split at h
        · rename_i hs
          cases h
          exact ⟨[], s, rfl, .nil, rfl, .inl hs⟩
        · cases h
      rcases Classical.em (c = '\\') with rfl | hb
      · cases s with
        | nil => rw [esc_slash (fun r => by simp)] at h; cases h
        | cons d s =>
          rcases Classical.em (d = '"') with rfl | hd
          · have e : escLen seen ('\\' :: '"' :: s) = (escLen true s).map (· + 2) := rfl
            rw [e] at h
            cases hr : escLen true s with
            | none => rw [hr] at h; cases h
            | some m =>
              rw [hr] at h; cases h
              rcases ih (by simp only [List.length_cons] at hk; omega) hr with ⟨b, r', rfl, hb, rfl, _⟩
              exact ⟨'\\' :: '"' :: b, r', rfl, .quote hb, rfl, .inr (by simp)⟩
          · rw [esc_slash (fun r hh => by cases hh; exact hd rfl)] at h; cases h
      · rw [esc_char hq hb] at h
        cases hr : escLen seen s with
        | none => rw [hr] at h; cases h
        | some m =>
          rw [hr] at h; cases h
          rcases ih (by omega) hr with ⟨b, r', rfl, hb', rfl, hm⟩
          refine ⟨c :: b, r', rfl, .char hq hb hb', rfl, ?_⟩
          rcases hm with hm | hm
          · exact .inl hm
          · exact .inr (by simp [hm])

theorem esc_of_len {s : Str} {seen : Bool} {n : Nat} (h : escLen seen s = some n) :
    ∃ body r, s = body ++ '"' :: r ∧ EscBody body ∧ n = body.length + 1 ∧ (seen = true ∨ '"' ∈ body) :=
  esc_of_len_aux s.length (Nat.le_refl _) h

theorem esc_none {body : Str} (h : '"' ∉ body) (h' : ∀ b, body ≠ b ++ ['\\']) (s : Str) :
    escLen false (body ++ '"' :: s) = none := by
  induction body with
  | nil => rfl
  | cons c b ih =>
    have hc : c ≠ '"' := fun hh => h (by simp [hh])
    have hb : '"' ∉ b := fun hh => h (by simp [hh])
    have hb' : ∀ b', b ≠ b' ++ ['\\'] := fun b' hh => h' (c :: b') (by simp [hh])
    rcases Classical.em (c = '\\') with rfl | hs
    · rw [List.cons_append, esc_slash]
      intro r hh
      cases b with
      | nil => exact h' [] rfl
      | cons d b => cases hh; exact hb (by simp)
    · rw [List.cons_append, esc_char hc hs, ih hb hb']; rfl

/-! ### steps -/

theorem lex_step {prev : Bool} {c : Char} {cs : Str} {ev : Option Ev} {n : Nat} (h : step prev c cs = (ev, n)) :
    lexFrom prev (c :: cs) = ev.toList ++ lexFrom (isWord ((c :: cs).getD n ' ')) (cs.drop n) := by
  rw [lexFrom, h]

/-- A step whose text is `p` without its first character. -/
theorem lex_piece {prev : Bool} {c : Char} {p s : Str} {ev : Option Ev} (h : step prev c (p ++ s) = (ev, p.length)) :
    lexFrom prev (c :: (p ++ s)) = ev.toList ++ lexFrom (isWord ((c :: p).getLast (by simp))) s := by
  rw [lex_step h]
  have e1 : (p ++ s).drop p.length = s := List.drop_left
  have e2 : (c :: (p ++ s)).getD p.length ' ' = (c :: p).getLast (by simp) := by
    rw [← List.cons_append, List.getD_eq_getElem?_getD, List.getElem?_append_left (by simp),
      List.getLast_eq_getElem, List.getElem?_eq_getElem (by simp)]
    simp
  rw [e1, e2]

/-- Characters that start a token of more than one character, or nothing at all. -/
theorem step_body {prev : Bool} {c : Char} {cs : Str} (h1 : c ≠ ' ') (h2 : c ≠ '\t') (h3 : c ≠ '#') (h4 : c ≠ '"')
    (h5 : c ≠ '\n') : step prev c cs =
      (match (if prev then none else rangeLen (c :: cs)) with
      | some n => (some (.tok (.range ((c :: cs).take n))), n - 1)
      | none =>
        match (if prev then none else dscpLen (c :: cs)) with
        | some n => (some (.tok (.dscp ((c :: cs).take n))), n - 1)
        | none =>
          if c == '0' && cs.head? == some 'x' && run isHex (cs.drop 1) != 0 then
            (some (.tok (.hex (c :: cs.take (1 + run isHex (cs.drop 1))))), 1 + run isHex (cs.drop 1))
          else if isDigit c then (some (.tok (.int (c :: cs.take (run isDigit cs)))), run isDigit cs)
          else if isWord c then (some (.tok (wordTok (c :: cs.take (run isName cs)))), run isName cs)
          else if isSign c then (some (.tok (.sign c)), 0)
          else (some (.illegal c), 0)) := by
  have b1 : (c == ' ' || c == '\t') = false := by simp [h1, h2]
  have b3 : (c == '#') = false := by simp [h3]
  have b4 : (c == '"') = false := by simp [h4]
  have b5 : (c == '\n') = false := by simp [h5]
  unfold step
  rw [b1, b3, b4, b5]
  rfl

theorem wordChar_plain {c : Char} (h : isWord c = true) :
    c ≠ ' ' ∧ c ≠ '\t' ∧ c ≠ '#' ∧ c ≠ '"' ∧ c ≠ '\n' := by
  refine ⟨?_, ?_, ?_, ?_, ?_⟩ <;> (intro hh; subst hh; revert h; decide)

theorem sign_plain {c : Char} (h : isSign c = true) :
    c ≠ ' ' ∧ c ≠ '\t' ∧ c ≠ '#' ∧ c ≠ '"' ∧ c ≠ '\n' := by
  refine ⟨?_, ?_, ?_, ?_, ?_⟩ <;> (intro hh; subst hh; revert h; decide)

theorem classLen_none {c : Char} (h : c ≠ 'a') (h2 : c ≠ 'b') (h3 : c ≠ 'c') (h4 : c ≠ 'e') (cs : Str) :
    classLen (c :: cs) = none := by
  unfold classLen
  split
  · rename_i hh; cases hh; exact absurd rfl h2
  · rename_i hh; cases hh; exact absurd rfl h
  · rename_i hh; cases hh; exact absurd rfl h4
  · rename_i hh; cases hh; exact absurd rfl h3
  · rfl

theorem no_dscp {c : Char} {cs : Str} (h : classLen (c :: cs) = none) :
    rangeLen (c :: cs) = none ∧ dscpLen (c :: cs) = none := by
  constructor
  · unfold rangeLen; rw [h]
  · unfold dscpLen; rw [h]

theorem step_plain {prev : Bool} {c : Char} {cs : Str} (h1 : c ≠ ' ') (h2 : c ≠ '\t') (h3 : c ≠ '#') (h4 : c ≠ '"')
    (h5 : c ≠ '\n') (hr : prev = false → rangeLen (c :: cs) = none) (hd : prev = false → dscpLen (c :: cs) = none) :
    step prev c cs =
      (if c == '0' && cs.head? == some 'x' && run isHex (cs.drop 1) != 0 then
        (some (.tok (.hex (c :: cs.take (1 + run isHex (cs.drop 1))))), 1 + run isHex (cs.drop 1))
      else if isDigit c then (some (.tok (.int (c :: cs.take (run isDigit cs)))), run isDigit cs)
      else if isWord c then (some (.tok (wordTok (c :: cs.take (run isName cs)))), run isName cs)
      else if isSign c then (some (.tok (.sign c)), 0)
      else (some (.illegal c), 0)) := by
  rw [step_body h1 h2 h3 h4 h5]
  have e1 : (if prev then none else rangeLen (c :: cs)) = none := by
    cases prev with
    | true => rfl
    | false => simp [hr rfl]
  have e2 : (if prev then none else dscpLen (c :: cs)) = none := by
    cases prev with
    | true => rfl
    | false => simp [hd rfl]
  rw [e1, e2]

theorem digit_no_class {c : Char} (h : isDigit c = true) (cs : Str) : classLen (c :: cs) = none := by
  apply classLen_none <;> (intro hh; subst hh; revert h; decide)

theorem alpha_not_digit {c : Char} (h : c.isAlpha = true ∨ c = '_') : isDigit c = false ∧ isWord c = true ∧ c ≠ '0' := by
  have hw : isWord c = true := by
    rw [word_iff]
    rcases h with h | h
    · exact .inl (by simp [Char.isAlphanum, h])
    · exact .inr h
  have : isDigit c = false := by
    rcases h with h | rfl
    · rw [← Bool.not_eq_true]
      intro hd
      rw [← alpha_iff] at h
      have hl : c.toNat < 128 := by
        simp only [isDigit, Bool.and_eq_true, decide_eq_true_eq] at hd
        exact between_cases hd (by decide)
      exact ascii_cases (p := fun c => isDigit c = true → isAlphaA c = true → False) (by decide) hl hd h
    · rfl
  refine ⟨this, hw, ?_⟩
  intro hh; subst hh; revert this; decide

/-! ### the words of the table -/

/-- The reserved words of the specification. -/
def specWords : List String :=
  "header" :: "term" :: kinds.flatMap fun k => termKeys k ++ headerKeys k

theorem keyword_iff (w : Str) : IsKeyword w ↔ w ∈ specWords.map String.toList := by
  unfold IsKeyword specWords
  simp only [List.map_cons, List.mem_cons, List.mem_map, List.mem_flatMap, List.mem_append]
  constructor
  · rintro (h | h | ⟨k, hk, s, hs, h⟩)
    · exact .inl h
    · exact .inr (.inl h)
    · exact .inr (.inr ⟨s, ⟨k, hk, hs⟩, h.symm⟩)
  · rintro (h | h | ⟨s, ⟨k, hk, hs⟩, h⟩)
    · exact .inl h
    · exact .inr (.inl h)
    · exact .inr (.inr ⟨k, hk, s, hs, h.symm⟩)

theorem words_same : (∀ s ∈ specWords, s ∈ reserved) ∧ (∀ s ∈ reserved, s ∈ specWords) := by
  constructor <;> decide +kernel

theorem reserved_iff (w : Str) : (reserved.map String.toList).contains w = true ↔ IsKeyword w := by
  rw [keyword_iff, List.contains_iff_mem]
  simp only [List.mem_map]
  exact ⟨fun ⟨s, h, e⟩ => ⟨s, words_same.2 s h, e⟩, fun ⟨s, h, e⟩ => ⟨s, words_same.1 s h, e⟩⟩

instance (c : Char) : Decidable (WordChar c) := inferInstanceAs (Decidable (_ ∨ _))
instance (c : Char) : Decidable (NameChar c) := inferInstanceAs (Decidable (_ ∨ _))

/-- Start of a name, as a test. -/
def nameB : Str → Bool
  | c :: cs => (c.isAlpha || c == '_') && cs.all isName
  | [] => false

theorem nameB_iff (w : Str) : nameB w = true ↔ WrittenName w := by
  cases w with
  | nil => exact ⟨(fun h => nomatch h), (fun ⟨_, _, h, _⟩ => nomatch h)⟩
  | cons c cs =>
    simp only [nameB, Bool.and_eq_true, Bool.or_eq_true, beq_iff_eq, List.all_eq_true, name_iff, WrittenName]
    constructor
    · rintro ⟨h, h'⟩; exact ⟨c, cs, rfl, h, h'⟩
    · rintro ⟨c', cs', e, h, h'⟩; cases e; exact ⟨h, h'⟩

theorem looks_len {w : Str} (hw : ∀ c ∈ w, NameChar c) (h : rangeLen w = none) (h' : dscpLen w = none) : ¬ LooksDscp w := by
  rintro (⟨d, x, hd, rfl, hx⟩ | ⟨d, d', x, hd, hd', rfl, hx⟩)
  · rw [dscp_len hd] at h'
    · cases h'
    · intro c r hc hh
      have := hx c r hc
      revert hh
      simp only [List.mem_cons, List.not_mem_nil, or_false] at this
      rcases this with rfl | rfl | rfl | rfl <;> decide
  · rw [range_len hd hd'] at h
    · cases h
    · intro c r hc hh
      have := hx c r hc
      revert hh
      simp only [List.mem_cons, List.not_mem_nil, or_false] at this
      rcases this with rfl | rfl | rfl | rfl | rfl <;> decide

theorem keyword_name {w : Str} (h : IsKeyword w) : WrittenName w ∧ ¬ LooksDscp w ∧ w ≠ "hex".toList := by
  rw [keyword_iff, List.mem_map] at h
  rcases h with ⟨s, hs, rfl⟩
  have : ∀ s ∈ specWords, nameB s.toList = true ∧ rangeLen s.toList = none ∧ dscpLen s.toList = none ∧
      s.toList ≠ "hex".toList := by decide +kernel
  have h := this s hs
  have hn := (nameB_iff _).1 h.1
  refine ⟨hn, looks_len ?_ h.2.1 h.2.2.1, h.2.2.2⟩
  rcases hn with ⟨c, cs, e, hc, hcs⟩
  rw [e]
  intro d hd
  rcases List.mem_cons.1 hd with rfl | hd
  · exact .inl ((word_iff _).1 (alpha_not_digit hc).2.1)
  · exact hcs d hd

/-! ### texts that spell tokens -/

theorem name_chars {w : Str} (h : WrittenName w) : ∀ c ∈ w, NameChar c := by
  rcases h with ⟨c, cs, rfl, hc, hcs⟩
  intro d hd
  rcases List.mem_cons.1 hd with rfl | hd
  · exact .inl ((word_iff _).1 (alpha_not_digit hc).2.1)
  · exact hcs d hd

/-- A `\w` before the text means that the text does not start with one. -/
def Fits (prev : Bool) (s : Str) : Prop := prev = true → Ends WordChar s

theorem fits_of_last {c : Char} {s : Str} (h : isWord c = true → Ends WordChar s) : Fits (isWord c) s := h

theorem not_prev {prev : Bool} {c : Char} {s : Str} (h : Fits prev (c :: s)) (hc : WordChar c) : prev = false := by
  cases prev with
  | false => rfl
  | true => exact absurd hc (h rfl c s rfl)

theorem ends_word {s : Str} (h : Ends NameChar s) : Ends WordChar s := fun c r e hc => h c r e (.inl hc)

theorem ends_false {p : Char → Bool} {q : Char → Prop} (hpq : ∀ c, p c = true → q c) {s : Str} (h : Ends q s) :
    ∀ c r, s = c :: r → p c = false := by
  intro c r e
  rw [← Bool.not_eq_true]
  intro hp
  exact h c r e (hpq c hp)

theorem step_name {prev : Bool} {w s : Str} (h : WrittenName w) (p : ¬ LooksDscp w) (e : Ends NameChar s) (hp : Fits prev (w ++ s)) :
    lexFrom prev (w ++ s) = .tok (wordTok w) :: lexFrom (isWord (w.getLast (by rcases h with ⟨c, cs, rfl, _⟩; simp))) s := by
  have hn := name_chars h
  rcases h with ⟨c, cs, rfl, hc, hcs⟩
  have ha := alpha_not_digit hc
  have hw := wordChar_plain ha.2.1
  rw [List.cons_append]
  have hs : step prev c (cs ++ s) = (some (.tok (wordTok (c :: cs))), cs.length) := by
    have hr : rangeLen (c :: (cs ++ s)) = none := plain_range p hn e
    have hd : dscpLen (c :: (cs ++ s)) = none := plain_dscp p hn e
    rw [step_plain hw.1 hw.2.1 hw.2.2.1 hw.2.2.2.1 hw.2.2.2.2 (fun _ => hr) (fun _ => hd)]
    have e0 : (c == '0') = false := by simp [ha.2.2]
    have er : run isName (cs ++ s) = cs.length :=
      run_append (fun d hd => (name_iff d).2 (hcs d hd)) (ends_false (fun c => (name_iff c).1) e)
    rw [e0, ha.1, ha.2.1, er, List.take_left]
    rfl
  rw [lex_piece hs]
  rfl

theorem getLast_mem_word {p : Char → Prop} {w : Str} (h : ∀ c ∈ w, p c) (hw : w ≠ []) : p (w.getLast hw) :=
  h _ (List.getLast_mem hw)

theorem step_number {prev : Bool} {w s : Str} (h : WrittenNumber w) (e : Ends WordChar s) (hp : Fits prev (w ++ s)) :
    lexFrom prev (w ++ s) = .tok (.int w) :: lexFrom (isWord (w.getLast h.1)) s := by
  rcases h with ⟨hne, hd⟩
  cases w with
  | nil => exact absurd rfl hne
  | cons c cs =>
    have hc : isDigit c = true := (digit_iff c).2 (hd c (by simp))
    have hcw : isWord c = true := by simp [isWord, hc]
    have hw := wordChar_plain hcw
    have hs : step prev c (cs ++ s) = (some (.tok (.int (c :: cs))), cs.length) := by
      have hno := no_dscp (digit_no_class hc (cs ++ s))
      rw [step_plain hw.1 hw.2.1 hw.2.2.1 hw.2.2.2.1 hw.2.2.2.2 (fun _ => hno.1) (fun _ => hno.2)]
      have e0 : ((cs ++ s).head? == some 'x') = false := by
        cases cs with
        | nil =>
          cases s with
          | nil => rfl
          | cons x s =>
            have : x ≠ 'x' := fun hh => e x s rfl (by rw [hh]; exact .inl rfl)
            simp [this]
        | cons x cs =>
          have hx := hd x (by simp)
          have : x ≠ 'x' := by intro hh; subst hh; revert hx; decide
          simp [this]
      have er : run isDigit (cs ++ s) = cs.length :=
        run_append (fun d hx => (digit_iff d).2 (hd d (by simp [hx])))
          (ends_false (fun c hx => (word_iff c).1 (by simp [isWord, hx])) e)
      rw [e0, hc, er, List.take_left]
      simp
    rw [List.cons_append, lex_piece hs]
    rfl

theorem step_hex {prev : Bool} {w s : Str} (h : w ≠ []) (h' : ∀ c ∈ w, HexChar c) (e : Ends WordChar s) :
    ∃ b, lexFrom prev ('0' :: 'x' :: (w ++ s)) = .tok (.hex ('0' :: 'x' :: w)) :: lexFrom b s ∧ (b = true → Ends WordChar s) := by
  have hs : step prev '0' (('x' :: w) ++ s) = (some (.tok (.hex ('0' :: 'x' :: w))), ('x' :: w).length) := by
    have hno := no_dscp (digit_no_class (c := '0') rfl (('x' :: w) ++ s))
    rw [step_plain (by decide) (by decide) (by decide) (by decide) (by decide) (fun _ => hno.1) (fun _ => hno.2)]
    have er : run isHex (w ++ s) = w.length :=
      run_append (fun d hd => (hex_iff d).2 (h' d hd))
        (ends_false (fun c hx => (word_iff c).1 (by
          have := (hex_iff c).1 hx
          have hh : ∀ c ∈ "0123456789abcdefABCDEF".toList, isWord c = true := by decide
          exact hh c this)) e)
    have e1 : (('x' :: w) ++ s).drop 1 = w ++ s := rfl
    have e2 : (run isHex (w ++ s) != 0) = true := by rw [er]; simp [h]
    rw [e1, e2, er]
    simp only [List.cons_append, List.head?_cons, beq_self_eq_true, Bool.and_self, if_true, List.length_cons]
    have : List.take (1 + w.length) ('x' :: (w ++ s)) = 'x' :: w := by
      rw [Nat.add_comm, List.take_succ_cons, List.take_left]
    rw [this, Nat.add_comm]
  have := lex_piece hs
  rw [List.cons_append] at this
  exact ⟨_, this, fun _ => e⟩

theorem class_cons {d : Str} (h : ClassName d) : ∃ c cs, d = c :: cs ∧ isWord c = true := by
  have hw := class_word h
  rcases h with ⟨b, rfl, _, _⟩ | ⟨x, y, rfl, _, _⟩ | rfl | rfl | ⟨x, rfl, _⟩ <;>
    exact ⟨_, _, rfl, (word_iff _).2 (hw _ (by simp))⟩

theorem step_dscp {prev : Bool} {d s : Str} (h : ClassName d) (e : Ends (fun c => WordChar c ∨ c = '-') s)
    (hp : Fits prev (d ++ s)) :
    ∃ b, lexFrom prev (d ++ s) = .tok (.dscp d) :: lexFrom b s := by
  rcases class_cons h with ⟨c, cs, rfl, hc⟩
  have hw := wordChar_plain hc
  have hprev : prev = false := not_prev hp ((word_iff _).1 hc)
  subst hprev
  have hs : step false c (cs ++ s) = (some (.tok (.dscp (c :: cs))), cs.length) := by
    rw [step_body hw.1 hw.2.1 hw.2.2.1 hw.2.2.2.1 hw.2.2.2.2]
    have e1 : rangeLen (c :: (cs ++ s)) = none := dscp_not_range h e
    have e2 : dscpLen (c :: (cs ++ s)) = some (c :: cs).length := dscp_len h e
    simp only [e1, e2, Bool.false_eq_true, if_false]
    rw [← List.cons_append, List.take_left]
    rfl
  rw [List.cons_append, lex_piece hs]
  exact ⟨_, rfl⟩

theorem step_range {prev : Bool} {d d' s : Str} (h : ClassName d) (h' : ClassName d') (e : Ends WordChar s)
    (hp : Fits prev (d ++ '-' :: (d' ++ s))) :
    ∃ b, lexFrom prev (d ++ '-' :: (d' ++ s)) = .tok (.range (d ++ '-' :: d')) :: lexFrom b s := by
  rcases class_cons h with ⟨c, cs, rfl, hc⟩
  have hw := wordChar_plain hc
  have hprev : prev = false := not_prev hp ((word_iff _).1 hc)
  subst hprev
  have ee : c :: cs ++ '-' :: (d' ++ s) = c :: ((cs ++ '-' :: d') ++ s) := by simp
  have hs : step false c ((cs ++ '-' :: d') ++ s) =
      (some (.tok (.range (c :: cs ++ '-' :: d'))), (cs ++ '-' :: d').length) := by
    rw [step_body hw.1 hw.2.1 hw.2.2.1 hw.2.2.2.1 hw.2.2.2.2]
    have e1 : rangeLen (c :: ((cs ++ '-' :: d') ++ s)) = some (c :: cs ++ '-' :: d').length := by
      rw [← ee]; exact range_len h h' e
    simp only [e1, Bool.false_eq_true, if_false]
    have : List.take (c :: cs ++ '-' :: d').length (c :: (cs ++ '-' :: d' ++ s)) = c :: cs ++ '-' :: d' := by
      rw [← ee]
      have : c :: cs ++ '-' :: (d' ++ s) = (c :: cs ++ '-' :: d') ++ s := by simp
      rw [this, List.take_left]
    rw [this]
    rfl
  rw [ee, lex_piece hs]
  exact ⟨_, rfl⟩

theorem step_quoted {prev : Bool} {body s : Str} (h : '"' ∉ body) (h' : ∀ b, body ≠ b ++ ['\\']) :
    lexFrom prev ('"' :: (body ++ '"' :: s)) = .tok (.quoted ('"' :: (body ++ ['"']))) :: lexFrom false s := by
  have ee : body ++ '"' :: s = (body ++ ['"']) ++ s := by simp
  have hr : run (· != '"') (body ++ '"' :: s) = body.length := by
    refine run_append ?_ ?_
    · intro c hc
      have : c ≠ '"' := fun hh => h (hh ▸ hc)
      simp [this]
    · intro c r hh; cases hh; rfl
  have hs : step prev '"' ((body ++ ['"']) ++ s) =
      (some (.tok (.quoted ('"' :: (body ++ ['"'])))), (body ++ ['"']).length) := by
    rw [← ee]
    have hm : (body ++ '"' :: s).contains '"' = true := by simp
    have : step prev '"' (body ++ '"' :: s) =
        (match escLen false (body ++ '"' :: s) with
        | some n => (some (.tok (.escaped ('"' :: (body ++ '"' :: s).take n))), n)
        | none =>
          if (body ++ '"' :: s).contains '"' then
            (some (.tok (.quoted ('"' :: (body ++ '"' :: s).take (run (· != '"') (body ++ '"' :: s) + 1)))),
              run (· != '"') (body ++ '"' :: s) + 1)
          else (some (.illegal '"'), 0)) := rfl
    rw [this, esc_none h h', hm, hr]
    simp only [if_true]
    have : List.take (body.length + 1) (body ++ '"' :: s) = body ++ ['"'] := by
      rw [ee]
      have : body.length + 1 = (body ++ ['"']).length := by simp
      rw [this, List.take_left]
    rw [this]
    simp
  rw [ee, lex_piece hs]
  have : ('"' :: (body ++ ['"'])).getLast (List.cons_ne_nil _ _) = '"' := by
    rw [List.getLast_cons (by simp)]; simp
  rw [this]
  rfl

theorem step_escaped {prev : Bool} {body s : Str} (h : EscBody body) (h' : '"' ∈ body) :
    lexFrom prev ('"' :: (body ++ '"' :: s)) = .tok (.escaped ('"' :: (body ++ ['"']))) :: lexFrom false s := by
  have ee : body ++ '"' :: s = (body ++ ['"']) ++ s := by simp
  have hs : step prev '"' ((body ++ ['"']) ++ s) =
      (some (.tok (.escaped ('"' :: (body ++ ['"'])))), (body ++ ['"']).length) := by
    rw [← ee]
    have : step prev '"' (body ++ '"' :: s) =
        (match escLen false (body ++ '"' :: s) with
        | some n => (some (.tok (.escaped ('"' :: (body ++ '"' :: s).take n))), n)
        | none =>
          if (body ++ '"' :: s).contains '"' then
            (some (.tok (.quoted ('"' :: (body ++ '"' :: s).take (run (· != '"') (body ++ '"' :: s) + 1)))),
              run (· != '"') (body ++ '"' :: s) + 1)
          else (some (.illegal '"'), 0)) := rfl
    rw [this, esc_len_body h, if_pos (.inr h')]
    have : List.take (body.length + 1) (body ++ '"' :: s) = body ++ ['"'] := by
      rw [ee]
      have : body.length + 1 = (body ++ ['"']).length := by simp
      rw [this, List.take_left]
    simp only [this]
    simp
  rw [ee, lex_piece hs]
  have : ('"' :: (body ++ ['"'])).getLast (List.cons_ne_nil _ _) = '"' := by
    rw [List.getLast_cons (by simp)]; simp
  rw [this]
  rfl

theorem step_sign {prev : Bool} {c : Char} (h : isSign c = true) (s : Str) :
    lexFrom prev (c :: s) = .tok (.sign c) :: lexFrom false s := by
  have hp := sign_plain h
  have hc : c ∈ ['[', ']', '(', ')', ':', '{', '}', ',', '-', '/'] := by simpa [isSign] using h
  have hf : (c == '0') = false ∧ isDigit c = false ∧ isWord c = false ∧ c ≠ 'a' ∧ c ≠ 'b' ∧ c ≠ 'c' ∧ c ≠ 'e' := by
    have : ∀ c ∈ ['[', ']', '(', ')', ':', '{', '}', ',', '-', '/'],
      (c == '0') = false ∧ isDigit c = false ∧ isWord c = false ∧ c ≠ 'a' ∧ c ≠ 'b' ∧ c ≠ 'c' ∧ c ≠ 'e' := by decide
    exact this c hc
  have hno := no_dscp (classLen_none hf.2.2.2.1 hf.2.2.2.2.1 hf.2.2.2.2.2.1 hf.2.2.2.2.2.2 s)
  have hs : step prev c ([] ++ s) = (some (.tok (.sign c)), ([] : Str).length) := by
    rw [List.nil_append, step_plain hp.1 hp.2.1 hp.2.2.1 hp.2.2.2.1 hp.2.2.2.2 (fun _ => hno.1) (fun _ => hno.2)]
    rw [hf.1, hf.2.1, hf.2.2.1, h]
    rfl
  have := lex_piece hs
  rw [List.nil_append] at this
  rw [this]
  show Ev.tok (.sign c) :: lexFrom (isWord c) s = _
  rw [hf.2.2.1]

theorem step_blank {prev : Bool} {c : Char} (h : c = ' ' ∨ c = '\t') (s : Str) :
    lexFrom prev (c :: s) = lexFrom false s := by
  have hs : step prev c ([] ++ s) = (none, ([] : Str).length) := by
    rcases h with rfl | rfl <;> rfl
  have := lex_piece hs
  rw [List.nil_append] at this
  rw [this]
  rcases h with rfl | rfl <;> rfl

theorem lex_newlines (n : Nat) {prev : Bool} {s : Str} : s.length ≤ n →
    lexFrom prev ('\n' :: s) = lexFrom false s := by
  induction n generalizing prev s with
  | zero =>
    intro h
    cases s with
    | nil => rw [lex_step (c := '\n') (cs := []) (ev := none) (n := 0) rfl]; rfl
    | cons c s => simp at h
  | succ n ih =>
    intro h
    rcases run_spec (· == '\n') s with ⟨r, h1, h2, h3, h4⟩
    have hl : s.take (run (· == '\n') s) = List.replicate (run (· == '\n') s) '\n' := by
      rw [List.eq_replicate_iff]
      refine ⟨?_, fun c hc => by simpa using h2 c hc⟩
      rw [List.length_take]
      have : run (· == '\n') s ≤ s.length := (List.takeWhile_prefix _).length_le
      omega
    have hrep : ∀ k, (List.replicate k '\n').length = k := by simp
    have hs : step prev '\n' (List.replicate (run (· == '\n') s) '\n' ++ r) =
        (none, (List.replicate (run (· == '\n') s) '\n').length) := by
      rw [← hl, ← h1, List.length_take]
      have : run (· == '\n') s ≤ s.length := (List.takeWhile_prefix _).length_le
      rw [Nat.min_eq_left this]
      rfl
    have hp := lex_piece hs
    rw [← hl, ← h1] at hp
    have hlast : ∀ k, (('\n' :: List.replicate k '\n').getLast (by simp)) = '\n' := by
      intro k
      have : ('\n' :: List.replicate k '\n') = List.replicate (k + 1) '\n' := rfl
      simp [this]
    have e : lexFrom prev ('\n' :: s) = lexFrom false r := by
      rw [hp]
      simp only [hl]
      rw [hlast]; rfl
    rw [e]
    cases hk : run (· == '\n') s with
    | zero => rw [hk] at h4; rw [← h4]; rfl
    | succ k =>
      rw [hk] at h1 hl
      rw [hl] at h1
      rw [h1, List.replicate_succ, List.cons_append]
      rw [h1] at h
      simp only [List.length_append, List.length_replicate] at h
      have hkk : ∀ k (p : Bool), k + r.length ≤ n → lexFrom p ('\n' :: (List.replicate k '\n' ++ r)) = lexFrom false r := by
        intro k
        induction k with
        | zero => intro p hh; exact ih (by simpa using hh)
        | succ k ihk =>
          intro p hh
          rw [List.replicate_succ, List.cons_append, ih (by simp; omega)]
          exact ihk false (by omega)
      exact (hkk k false (by omega)).symm

theorem step_newline {prev : Bool} (s : Str) : lexFrom prev ('\n' :: s) = lexFrom false s :=
  lex_newlines s.length (Nat.le_refl _)

theorem step_note {prev : Bool} {body s : Str} (h : '\n' ∉ body) (e : s = [] ∨ ∃ s', s = '\n' :: s') :
    ∃ b, lexFrom prev ('#' :: (body ++ s)) = lexFrom b s := by
  have hr : run (· != '\n') (body ++ s) = body.length := by
    refine run_append ?_ ?_
    · intro c hc
      have : c ≠ '\n' := fun hh => h (hh ▸ hc)
      simp [this]
    · intro c r hh
      rcases e with rfl | ⟨s', rfl⟩
      · cases hh
      · cases hh; rfl
  have hs : step prev '#' (body ++ s) = (none, body.length) := by
    have : step prev '#' (body ++ s) = (none, run (· != '\n') (body ++ s)) := rfl
    rw [this, hr]
  rw [lex_piece hs]
  exact ⟨_, rfl⟩

theorem wordTok_word {w : Str} (k : ¬ IsKeyword w) (x : w ≠ "hex".toList) : wordTok w = .word w := by
  unfold wordTok
  rw [if_neg (by simpa using x), if_neg (by rw [reserved_iff]; exact k)]

theorem wordTok_key {w : Str} (k : IsKeyword w) : wordTok w = .key w := by
  unfold wordTok
  rw [if_neg (by simpa using (keyword_name k).2.2), if_pos ((reserved_iff w).2 k)]

theorem spells_lex {s : Str} {ts : List Tok} (h : Spells s ts) :
    ∀ prev, Fits prev s → lexFrom prev s = ts.map .tok := by
  induction h with
  | nil => intro prev _; rw [lexFrom]; rfl
  | @blank c s ts hc r ih =>
    intro prev _
    have hf : Fits false s := fun hh => nomatch hh
    rcases hc with rfl | rfl | rfl
    · rw [step_blank (.inl rfl)]; exact ih _ hf
    · rw [step_blank (.inr rfl)]; exact ih _ hf
    · rw [step_newline]; exact ih _ hf
  | @note body s ts hb e r ih =>
    intro prev _
    rcases step_note (prev := prev) hb e with ⟨b, hl⟩
    rw [hl]
    refine ih b fun _ c r' hc hw => ?_
    rcases e with rfl | ⟨s', rfl⟩
    · cases hc
    · cases hc; revert hw; decide
  | @word w s ts hn p k x e r ih =>
    intro prev hp
    rw [step_name hn p e hp, wordTok_word k x, ih _ fun _ => ends_word e]
    rfl
  | @key w s ts k e r ih =>
    intro prev hp
    rw [step_name (keyword_name k).1 (keyword_name k).2.1 e hp, wordTok_key k, ih _ fun _ => ends_word e]
    rfl
  | @int w s ts hn e r ih =>
    intro prev hp
    rw [step_number hn e hp, ih _ fun _ => e]
    rfl
  | @hex w s ts hn hn' e r ih =>
    intro prev _
    rcases step_hex (prev := prev) hn hn' e with ⟨b, hl, hb⟩
    rw [hl, ih b hb]
    rfl
  | @dscp d s ts hd e r ih =>
    intro prev hp
    rcases step_dscp hd e hp with ⟨b, hl⟩
    rw [hl, ih b fun _ c r' hc hw => e c r' hc (.inl hw)]
    rfl
  | @range d d' s ts hd hd' e r ih =>
    intro prev hp
    rcases step_range hd hd' e hp with ⟨b, hl⟩
    rw [hl, ih b fun _ => e]
    rfl
  | @quoted body s ts hb hb' r ih =>
    intro prev _
    rw [step_quoted hb hb', ih false (fun hh => by cases hh)]
    rfl
  | @escaped body s ts hb hb' r ih =>
    intro prev _
    rw [step_escaped hb hb', ih false (fun hh => by cases hh)]
    rfl
  | @sign c s ts hc r ih =>
    intro prev _
    rw [step_sign (by simpa [isSign] using hc), ih false (fun hh => by cases hh)]
    rfl

end PolicyText
end Verif
