import Verif.Lemmas.PolicyLex

/-!
The parser accepts the token lists of the grammar and reads them as the grammar says.
-/

namespace Verif
namespace PolicyText
open Spec PyStr

theorem decimal_eq (s : Str) : digitsVal s = decimal s := rfl

/-- What follows a value in a block. -/
def Closing (ts : List Tok) : Prop := (∃ r, ts = .sign '}' :: r) ∨ ∃ k r, ts = .key k :: r

/-! ### lists -/

theorem takeWords_spec (ts : List Tok) : ts = (takeWords ts).1.map .word ++ (takeWords ts).2 := by
  induction ts with
  | nil => rfl
  | cons t ts ih =>
    cases t <;> first | rfl | (simp only [takeWords, List.map_cons, List.cons_append]; rw [← ih])

theorem takeWords_map (l : List Str) {r : List Tok} (h : Closing r) : takeWords (l.map .word ++ r) = (l, r) := by
  induction l with
  | nil => rcases h with ⟨r, rfl⟩ | ⟨k, r, rfl⟩ <;> rfl
  | cons s l ih => simp only [List.map_cons, List.cons_append, takeWords, ih]

theorem takeInts_spec (ts : List Tok) :
    ∃ l : List Str, ts = l.map .int ++ (takeInts ts).2 ∧ (takeInts ts).1 = l.map decimal := by
  induction ts with
  | nil => exact ⟨[], rfl, rfl⟩
  | cons t ts ih =>
    cases t with
    | int s =>
      rcases ih with ⟨l, h1, h2⟩
      refine ⟨s :: l, ?_, ?_⟩
      · simp only [takeInts, List.map_cons, List.cons_append]; rw [← h1]
      · simp only [takeInts, List.map_cons, h2, decimal_eq]
    | _ => exact ⟨[], rfl, rfl⟩

theorem takeInts_map (l : List Str) {r : List Tok} (h : Closing r) :
    takeInts (l.map .int ++ r) = (l.map decimal, r) := by
  induction l with
  | nil => rcases h with ⟨r, rfl⟩ | ⟨k, r, rfl⟩ <;> rfl
  | cons s l ih => simp only [List.map_cons, List.cons_append, takeInts, ih, decimal_eq]

theorem takeWordsInts_spec (ts : List Tok) :
    ∃ l, ts = l ++ (takeWordsInts ts).2 ∧ (takeWordsInts ts).1 = l.map spelled ∧
      ∀ t ∈ l, ∃ s, t = .word s ∨ t = .int s := by
  induction ts with
  | nil => exact ⟨[], rfl, rfl, (by simp)⟩
  | cons t ts ih =>
    rcases ih with ⟨l, h1, h2, h3⟩
    cases t with
    | int s =>
      refine ⟨.int s :: l, ?_, ?_, ?_⟩
      · simp only [takeWordsInts, List.cons_append]; rw [← h1]
      · simp only [takeWordsInts, List.map_cons, h2, spelled]
      · intro t ht
        rcases List.mem_cons.1 ht with rfl | ht
        · exact ⟨s, .inr rfl⟩
        · exact h3 t ht
    | word s =>
      refine ⟨.word s :: l, ?_, ?_, ?_⟩
      · simp only [takeWordsInts, List.cons_append]; rw [← h1]
      · simp only [takeWordsInts, List.map_cons, h2, spelled]
      · intro t ht
        rcases List.mem_cons.1 ht with rfl | ht
        · exact ⟨s, .inl rfl⟩
        · exact h3 t ht
    | _ => exact ⟨[], rfl, rfl, (by simp)⟩

theorem takeWordsInts_map {l : List Tok} (hl : ∀ t ∈ l, ∃ s, t = .word s ∨ t = .int s) {r : List Tok} (h : Closing r) :
    takeWordsInts (l ++ r) = (l.map spelled, r) := by
  induction l with
  | nil => rcases h with ⟨r, rfl⟩ | ⟨k, r, rfl⟩ <;> rfl
  | cons t l ih =>
    have ih := ih fun t ht => hl t (by simp [ht])
    rcases hl t (by simp) with ⟨s, rfl | rfl⟩ <;>
      simp only [List.cons_append, List.map_cons, takeWordsInts, ih, spelled]

theorem takeDscps_spec (ts : List Tok) :
    ∃ l, ts = l ++ (takeDscps ts).2 ∧ (takeDscps ts).1 = l.map spelled ∧
      ∀ t ∈ l, ∃ s, t = .dscp s ∨ t = .range s ∨ t = .int s := by
  induction ts with
  | nil => exact ⟨[], rfl, rfl, (by simp)⟩
  | cons t ts ih =>
    rcases ih with ⟨l, h1, h2, h3⟩
    cases t with
    | int s =>
      refine ⟨.int s :: l, ?_, ?_, ?_⟩
      · simp only [takeDscps, List.cons_append]; rw [← h1]
      · simp only [takeDscps, List.map_cons, h2, spelled]
      · intro t ht
        rcases List.mem_cons.1 ht with rfl | ht
        · exact ⟨s, .inr (.inr rfl)⟩
        · exact h3 t ht
    | dscp s =>
      refine ⟨.dscp s :: l, ?_, ?_, ?_⟩
      · simp only [takeDscps, List.cons_append]; rw [← h1]
      · simp only [takeDscps, List.map_cons, h2, spelled]
      · intro t ht
        rcases List.mem_cons.1 ht with rfl | ht
        · exact ⟨s, .inl rfl⟩
        · exact h3 t ht
    | range s =>
      refine ⟨.range s :: l, ?_, ?_, ?_⟩
      · simp only [takeDscps, List.cons_append]; rw [← h1]
      · simp only [takeDscps, List.map_cons, h2, spelled]
      · intro t ht
        rcases List.mem_cons.1 ht with rfl | ht
        · exact ⟨s, .inr (.inl rfl)⟩
        · exact h3 t ht
    | _ => exact ⟨[], rfl, rfl, (by simp)⟩

theorem takeDscps_map {l : List Tok} (hl : ∀ t ∈ l, ∃ s, t = .dscp s ∨ t = .range s ∨ t = .int s) {r : List Tok}
    (h : Closing r) : takeDscps (l ++ r) = (l.map spelled, r) := by
  induction l with
  | nil => rcases h with ⟨r, rfl⟩ | ⟨k, r, rfl⟩ <;> rfl
  | cons t l ih =>
    have ih := ih fun t ht => hl t (by simp [ht])
    rcases hl t (by simp) with ⟨s, rfl | rfl | rfl⟩ <;>
      simp only [List.cons_append, List.map_cons, takeDscps, ih, spelled]

/-! ### tuples -/

theorem more_closing (l : List (Str × Str)) {r : List Tok} (h : Closing r) : moreTuples l r = .ok (l, r) := by
  rcases h with ⟨r, rfl⟩ | ⟨k, r, rfl⟩ <;> rw [moreTuples.eq_def] <;> rfl

theorem tuples_complete {l : List (Str × Str)} {ts : List Tok} (h : TupleList l ts) :
    ∀ r, parseTuples (ts ++ r) = moreTuples l r := by
  induction h with
  | one a b => intro r; rfl
  | @bracket l ts _ ih =>
    intro r
    have e : .sign '[' :: (ts ++ [.sign ']']) ++ r = .sign '[' :: (ts ++ .sign ']' :: r) := by simp
    rw [e, parseTuples, ih]
    rfl
  | @more l ts _ a b ih =>
    intro r
    rw [List.append_assoc, ih]
    rfl
  | @comma l ts _ a b ih =>
    intro r
    rw [List.append_assoc, ih]
    rfl

theorem more_sound (n : Nat) : ∀ (ts : List Tok) (l0 : List (Str × Str)) {ts0 l r}, ts.length ≤ n → TupleList l0 ts0 →
    moreTuples l0 ts = .ok (l, r) → ∃ ts1, ts = ts1 ++ r ∧ TupleList l (ts0 ++ ts1) := by
  induction n with
  | zero =>
    intro ts l0 ts0 l r hn h0 h
    cases ts with
    | nil =>
      rw [moreTuples.eq_def] at h
      cases h
      exact ⟨[], rfl, (by simpa using h0)⟩
    | cons t ts => simp at hn
  | succ n ih =>
    intro ts l0 ts0 l r hn h0 h
    rw [moreTuples.eq_def] at h
    split at h
    · rename_i a b ts'
      simp only [List.length_cons] at hn
      rcases ih ts' _ (by omega) (.more h0 a b) h with ⟨ts1, rfl, h1⟩
      exact ⟨tupleToks a b ++ ts1, rfl, (by simpa [List.append_assoc] using h1)⟩
    · rename_i a b ts'
      simp only [List.length_cons] at hn
      rcases ih ts' _ (by omega) (.comma h0 a b) h with ⟨ts1, rfl, h1⟩
      exact ⟨.sign ',' :: tupleToks a b ++ ts1, rfl, (by simpa [List.append_assoc] using h1)⟩
    · cases h
    · cases h
    · cases h
    · cases h
      exact ⟨[], rfl, (by simpa using h0)⟩

theorem tuples_sound (n : Nat) : ∀ (ts : List Tok) {l r}, ts.length ≤ n → parseTuples ts = .ok (l, r) →
    ∃ ts1, ts = ts1 ++ r ∧ TupleList l ts1 := by
  induction n with
  | zero =>
    intro ts l r hn h
    cases ts with
    | nil => rw [parseTuples.eq_def] at h; cases h
    | cons t ts => simp at hn
  | succ n ih =>
    intro ts l r hn h
    rw [parseTuples.eq_def] at h
    split at h
    · rename_i r'
      simp only [List.length_cons] at hn
      split at h
      · cases h
      · rename_i l' r'' he
        rcases ih r' (by omega) he with ⟨ts1, rfl, h1⟩
        rcases more_sound _ _ _ (Nat.le_refl _) (.bracket h1) h with ⟨ts2, rfl, h2⟩
        exact ⟨.sign '[' :: (ts1 ++ [.sign ']']) ++ ts2, (by simp), h2⟩
      · cases h
    · rename_i a b r'
      rcases more_sound _ _ _ (Nat.le_refl _) (.one a b) h with ⟨ts1, rfl, h1⟩
      exact ⟨tupleToks a b ++ ts1, rfl, h1⟩
    · cases h

/-! ### dates and settings -/

theorem date_iff (y m d : Nat) (v : Val) : mkDate y m d = .ok v ↔ CalendarDay y m d ∧ v = .date y m d := by
  have key : (1 ≤ y && y ≤ 9999 && 1 ≤ m && m ≤ 12 && 1 ≤ d && d ≤ daysIn y m) = true ↔ CalendarDay y m d := by
    simp only [Bool.and_eq_true, decide_eq_true_eq, CalendarDay]
    have hm : 1 ≤ m ∧ m ≤ 12 → m = 1 ∨ m = 2 ∨ m = 3 ∨ m = 4 ∨ m = 5 ∨ m = 6 ∨ m = 7 ∨ m = 8 ∨ m = 9 ∨ m = 10 ∨
      m = 11 ∨ m = 12 := by omega
    have leap : (y % 4 == 0 && (y % 100 != 0 || y % 400 == 0)) = true ↔ (400 ∣ y ∨ (4 ∣ y ∧ ¬ 100 ∣ y)) := by
      simp only [Bool.and_eq_true, Bool.or_eq_true, beq_iff_eq, bne_iff_ne, ne_eq]
      omega
    constructor
    · rintro ⟨⟨⟨⟨⟨h1, h2⟩, h3⟩, h4⟩, h5⟩, h6⟩
      refine ⟨h1, h2, h5, ?_⟩
      rcases hm ⟨h3, h4⟩ with rfl | rfl | rfl | rfl | rfl | rfl | rfl | rfl | rfl | rfl | rfl | rfl
      · exact .inl ⟨by decide, h6⟩
      · refine .inr (.inr ⟨rfl, ?_⟩)
        have e : daysIn y 2 = if (y % 4 == 0 && (y % 100 != 0 || y % 400 == 0)) then 29 else 28 := rfl
        rw [e] at h6
        split at h6
        · rename_i hl
          rcases Nat.lt_or_ge d 29 with hd | hd
          · exact .inl (by omega)
          · exact .inr ⟨by omega, leap.1 hl⟩
        · exact .inl h6
      · exact .inl ⟨by decide, h6⟩
      · exact .inr (.inl ⟨by decide, h6⟩)
      · exact .inl ⟨by decide, h6⟩
      · exact .inr (.inl ⟨by decide, h6⟩)
      · exact .inl ⟨by decide, h6⟩
      · exact .inl ⟨by decide, h6⟩
      · exact .inr (.inl ⟨by decide, h6⟩)
      · exact .inl ⟨by decide, h6⟩
      · exact .inr (.inl ⟨by decide, h6⟩)
      · exact .inl ⟨by decide, h6⟩
    · rintro ⟨h1, h2, h5, h6⟩
      rcases h6 with ⟨hm', h6⟩ | ⟨hm', h6⟩ | ⟨rfl, h6⟩
      · simp only [List.mem_cons, List.not_mem_nil, or_false] at hm'
        rcases hm' with rfl | rfl | rfl | rfl | rfl | rfl | rfl <;>
          exact ⟨⟨⟨⟨⟨h1, h2⟩, by omega⟩, by omega⟩, h5⟩, h6⟩
      · simp only [List.mem_cons, List.not_mem_nil, or_false] at hm'
        rcases hm' with rfl | rfl | rfl | rfl <;>
          exact ⟨⟨⟨⟨⟨h1, h2⟩, by omega⟩, by omega⟩, h5⟩, h6⟩
      · refine ⟨⟨⟨⟨⟨h1, h2⟩, by omega⟩, by omega⟩, h5⟩, ?_⟩
        have e : daysIn y 2 = if (y % 4 == 0 && (y % 100 != 0 || y % 400 == 0)) then 29 else 28 := rfl
        rw [e]
        rcases h6 with h6 | ⟨rfl, h6⟩
        · split <;> omega
        · rw [if_pos (leap.2 h6)]
          exact Nat.le_refl _
  unfold mkDate
  split
  · rename_i h
    constructor
    · intro hh; cases hh; exact ⟨key.1 h, rfl⟩
    · rintro ⟨_, rfl⟩; rfl
  · rename_i h
    constructor
    · intro hh; cases hh
    · rintro ⟨hc, _⟩; exact absurd (key.2 hc) h

theorem flexInt_iff (n : Nat) (v : Tok) : flexInt (n + 1) v = .ok () ↔ ∃ s, v = .int s ∧ decimal s ≤ n := by
  cases v with
  | int s =>
    have e : flexInt (n + 1) (.int s) = if decimal s < n + 1 then .ok () else .error (.raised "FlexibleMatchError") := by
      rw [← decimal_eq]; rfl
    rw [e]
    constructor
    · intro h
      split at h
      · exact ⟨s, rfl, by omega⟩
      · cases h
    · rintro ⟨s', hs, h⟩
      cases hs
      rw [if_pos (by omega)]
  | _ =>
    constructor
    · intro h; cases h
    · rintro ⟨s, hs, _⟩; cases hs

theorem flexVal_iff (v : Tok) : (∃ s, flexVal v = some s) ↔ ∃ s, v = .hex s ∨ v = .int s ∨ v = .word s := by
  cases v with
  | hex s => exact ⟨fun _ => ⟨s, .inl rfl⟩, fun _ => ⟨s, rfl⟩⟩
  | int s => exact ⟨fun _ => ⟨s, .inr (.inl rfl)⟩, fun _ => ⟨s, rfl⟩⟩
  | word s => exact ⟨fun _ => ⟨s, .inr (.inr rfl)⟩, fun _ => ⟨s, rfl⟩⟩
  | _ =>
    constructor
    · rintro ⟨s, h⟩; cases h
    · rintro ⟨s, h | h | h⟩ <;> cases h

theorem flexVal_spelled {v : Tok} {s : Str} (h : flexVal v = some s) : s = spelled v := by
  cases v <;> cases h <;> rfl

theorem flex_iff {k s : Str} {v : Tok} (hv : flexVal v = some s) : flexCheck k v s = .ok () ↔ FlexSetting k v := by
  have h0 : ∃ s, v = .hex s ∨ v = .int s ∨ v = .word s := (flexVal_iff v).1 ⟨s, hv⟩
  have hs : s = spelled v := flexVal_spelled hv
  unfold flexCheck FlexSetting
  rw [← hs]
  split
  · rename_i hn
    constructor
    · intro h; cases h
    · rintro ⟨_, h⟩
      exfalso
      simp only [Bool.not_eq_true', ← Bool.not_eq_true, List.contains_iff_mem] at hn
      apply hn
      rcases h with ⟨rfl, _⟩ | ⟨rfl, _⟩ | ⟨rfl, _⟩ | ⟨rfl, _⟩ | h
      · decide
      · decide
      · decide
      · decide
      · simp only [List.mem_cons, List.not_mem_nil, or_false] at h
        rcases h with rfl | rfl | rfl <;> decide
  · rename_i hn
    rw [Bool.not_eq_true', Bool.not_eq_false, List.contains_iff_mem] at hn
    have hk := hn
    split
    · rename_i hm
      have hm : k = "match-start".toList := by simpa using hm
      subst hm
      split
      · rename_i hc
        rw [List.contains_iff_mem] at hc
        exact ⟨fun _ => ⟨h0, .inl ⟨rfl, hc⟩⟩, fun _ => rfl⟩
      · rename_i hc
        rw [List.contains_iff_mem] at hc
        constructor
        · intro h; cases h
        · rintro ⟨_, h⟩
          exfalso
          rcases h with ⟨_, h⟩ | ⟨h, _⟩ | ⟨h, _⟩ | ⟨h, _⟩ | h
          · exact hc h
          · exact absurd h (by decide)
          · exact absurd h (by decide)
          · exact absurd h (by decide)
          · exact absurd h (by decide)
    · rename_i hm
      have hm : k ≠ "match-start".toList := by simpa using hm
      split
      · rename_i hm
        have hm : k = "bit-length".toList := by simpa using hm
        subst hm
        rw [flexInt_iff 32]
        constructor
        · intro h; exact ⟨h0, .inr (.inl ⟨rfl, h⟩)⟩
        · rintro ⟨_, h⟩
          rcases h with ⟨h, _⟩ | ⟨_, h⟩ | ⟨h, _⟩ | ⟨h, _⟩ | h
          · exact absurd h (by decide)
          · exact h
          · exact absurd h (by decide)
          · exact absurd h (by decide)
          · exact absurd h (by decide)
      · rename_i hm2
        have hm2 : k ≠ "bit-length".toList := by simpa using hm2
        split
        · rename_i hm
          have hm : k = "bit-offset".toList := by simpa using hm
          subst hm
          rw [flexInt_iff 7]
          constructor
          · intro h; exact ⟨h0, .inr (.inr (.inl ⟨rfl, h⟩))⟩
          · rintro ⟨_, h⟩
            rcases h with ⟨h, _⟩ | ⟨h, _⟩ | ⟨_, h⟩ | ⟨h, _⟩ | h
            · exact absurd h (by decide)
            · exact absurd h (by decide)
            · exact h
            · exact absurd h (by decide)
            · exact absurd h (by decide)
        · rename_i hm3
          have hm3 : k ≠ "bit-offset".toList := by simpa using hm3
          split
          · rename_i hm
            have hm : k = "byte-offset".toList := by simpa using hm
            subst hm
            rw [flexInt_iff 255]
            constructor
            · intro h; exact ⟨h0, .inr (.inr (.inr (.inl ⟨rfl, h⟩)))⟩
            · rintro ⟨_, h⟩
              rcases h with ⟨h, _⟩ | ⟨h, _⟩ | ⟨h, _⟩ | ⟨_, h⟩ | h
              · exact absurd h (by decide)
              · exact absurd h (by decide)
              · exact absurd h (by decide)
              · exact h
              · exact absurd h (by decide)
          · rename_i hm4
            have hm4 : k ≠ "byte-offset".toList := by simpa using hm4
            refine ⟨fun _ => ⟨h0, .inr (.inr (.inr (.inr ?_)))⟩, fun _ => rfl⟩
            simp only [List.map_cons, List.map_nil, List.mem_cons, List.not_mem_nil, or_false] at hk ⊢
            rcases hk with h | h | h | h | h | h | h
            · exact absurd h hm4
            · exact absurd h hm3
            · exact absurd h hm2
            · exact absurd h hm
            · exact .inl h
            · exact .inr (.inl h)
            · exact .inr (.inr h)

theorem parseFlex_sound {ts r : List Tok} {v : Val} (h : parseFlex ts = .ok (v, r)) :
    ∃ k t, ts = .word k :: t :: r ∧ FlexSetting k t ∧ v = .pair k (spelled t) := by
  unfold parseFlex at h
  split at h
  · rename_i k t r'
    split at h
    · cases h
    · rename_i s hs
      split at h
      · cases h
      · rename_i hf
        split at h
        · split at h <;> cases h
        · cases h
          exact ⟨k, t, rfl, (flex_iff hs).1 hf, (by rw [flexVal_spelled hs])⟩
  · cases h
  · cases h

theorem parseFlex_complete {k : Str} {t : Tok} (h : FlexSetting k t) {r : List Tok} (hr : Closing r) :
    parseFlex (.word k :: t :: r) = .ok (.pair k (spelled t), r) := by
  rcases (flexVal_iff t).2 h.1 with ⟨s, hs⟩
  have hf := (flex_iff hs).2 h
  have es := flexVal_spelled hs
  subst es
  simp only [parseFlex, hs, hf]
  rcases hr with ⟨r, rfl⟩ | ⟨k', r, rfl⟩ <;> rfl

/-! ### values -/

theorem nonEmpty_ok {x : List Str × List Tok} {v : Val} {r : List Tok} (h : nonEmpty x = .ok (v, r)) :
    x.1 ≠ [] ∧ v = .words x.1 ∧ r = x.2 := by
  unfold nonEmpty at h
  split at h
  · cases h
  · rename_i hn
    cases h
    exact ⟨(by simpa using hn), rfl, rfl⟩

theorem value_sound {kind : Kind} {ts r : List Tok} {v : Val} (h : parseVal kind ts = .ok (v, r)) :
    ∃ vt, ts = vt ++ r ∧ ValueIs kind v vt := by
  unfold parseVal at h
  split at h
  · rcases nonEmpty_ok h with ⟨h1, rfl, rfl⟩
    exact ⟨_, takeWords_spec _, .strs h1⟩
  · rcases nonEmpty_ok h with ⟨h1, rfl, rfl⟩
    rcases takeWordsInts_spec ts with ⟨l, e1, e2, e3⟩
    rw [e2] at h1 ⊢
    exact ⟨l, e1, .strsInts (by simpa using h1) e3⟩
  · dsimp only at h
    split at h
    · cases h
    · rename_i hn
      rcases takeInts_spec ts with ⟨l, e1, e2⟩
      cases h
      rw [e2] at hn ⊢
      exact ⟨_, e1, .ints (by simpa using hn)⟩
  · cases h
    rcases takeInts_spec ts with ⟨l, e1, e2⟩
    rw [e2]
    exact ⟨_, e1, .intsOpt⟩
  · cases h; exact ⟨[_], rfl, .str⟩
  · cases h; exact ⟨[_], rfl, .int⟩
  · cases h; exact ⟨[_, _, _], rfl, .span⟩
  · cases h; exact ⟨[_], rfl, .single⟩
  · cases h; exact ⟨[_], rfl, .dscp⟩
  · cases h; exact ⟨[_], rfl, .dscpInt⟩
  · dsimp only at h
    split at h
    · cases h
    · rename_i hn
      rcases takeDscps_spec ts with ⟨l, e1, e2, e3⟩
      cases h
      rw [e2] at hn ⊢
      exact ⟨_, e1, .dscps (by simpa using hn) e3⟩
  · cases h; exact ⟨[_], rfl, .quoted⟩
  · cases h; exact ⟨[_, _, _], rfl, .limit⟩
  · split at h
    · cases h
    · rename_i hd
      rw [date_iff] at hd
      cases h
      rcases hd with ⟨hd, rfl⟩
      exact ⟨[_, _, _, _, _], rfl, .date hd⟩
  · cases h; exact ⟨[_, _], rfl, .verbatim⟩
  · cases h; exact ⟨[_, _], rfl, .verbatimEscaped⟩
  · cases h; exact ⟨[_, _], rfl, .vpnPair⟩
  · cases h; exact ⟨[_], rfl, .vpn⟩
  · rcases parseFlex_sound h with ⟨k, t, rfl, hf, rfl⟩
    exact ⟨[_, _], rfl, .flex hf⟩
  · split at h
    · cases h
    · rename_i he
      cases h
      rcases tuples_sound _ _ (Nat.le_refl _) he with ⟨ts1, rfl, h1⟩
      exact ⟨ts1, rfl, .tuples h1⟩
  · cases h

theorem value_complete {kind : Kind} {vt r : List Tok} {v : Val} (h : ValueIs kind v vt) (hr : Closing r) :
    parseVal kind (vt ++ r) = .ok (v, r) := by
  cases h with
  | @strs l h => simp [parseVal, nonEmpty, takeWords_map l hr, h]
  | strsInts h h' => simp [parseVal, nonEmpty, takeWordsInts_map h' hr, h]
  | @ints l h => simp [parseVal, takeInts_map l hr, h]
  | @intsOpt l => simp [parseVal, takeInts_map l hr]
  | str => rfl
  | int => rfl
  | single => rcases hr with ⟨r, rfl⟩ | ⟨k', r, rfl⟩ <;> rfl
  | span => rfl
  | dscp => rfl
  | dscpInt => rfl
  | dscps h h' => simp [parseVal, takeDscps_map h' hr, h]
  | quoted => rfl
  | limit => rfl
  | date h =>
    have := (date_iff _ _ _ _).2 ⟨h, rfl⟩
    simp only [List.cons_append, List.nil_append, parseVal, decimal_eq, this]
  | verbatim => rfl
  | verbatimEscaped => rfl
  | vpn => rcases hr with ⟨r, rfl⟩ | ⟨k', r, rfl⟩ <;> rfl
  | vpnPair => rfl
  | flex h => exact parseFlex_complete h hr
  | tuples h =>
    simp only [parseVal, tuples_complete h, more_closing _ hr]

/-! ### items, terms, policies -/

/-- The table of the model has the keywords of the specification. -/
def Agrees (table : List (String × Kind)) (words : Kind → List String) : Prop :=
  ∀ (k : Str) (kind : Kind), (table.map fun e => (e.1.toList, e.2)).lookup k = some kind ↔
    ∃ s, s ∈ words kind ∧ k = s.toList

theorem lookup_map_mem {l : List (String × Kind)} {k : Str} {kind : Kind}
    (h : (l.map fun e => (e.1.toList, e.2)).lookup k = some kind) : ∃ s, (s, kind) ∈ l ∧ k = s.toList := by
  induction l with
  | nil => cases h
  | cons e l ih =>
    simp only [List.map_cons, List.lookup_cons] at h
    split at h
    · rename_i hk
      cases h
      exact ⟨e.1, by simp, by simpa using hk⟩
    · rcases ih h with ⟨s, hs, rfl⟩
      exact ⟨s, by simp [hs], rfl⟩

theorem agrees_of {table : List (String × Kind)} {words : Kind → List String}
    (h1 : ∀ e ∈ table, e.1 ∈ words e.2)
    (h2 : ∀ k ∈ kinds, ∀ s ∈ words k, (table.map fun e => (e.1.toList, e.2)).lookup s.toList = some k) :
    Agrees table words := by
  intro k kind
  constructor
  · intro h
    rcases lookup_map_mem h with ⟨s, hs, rfl⟩
    exact ⟨s, h1 _ hs, rfl⟩
  · rintro ⟨s, hs, rfl⟩
    exact h2 kind (by cases kind <;> decide) s hs

theorem term_agrees : Agrees termTable termKeys := agrees_of (by decide +kernel) (by decide +kernel)

theorem header_agrees : Agrees headerTable headerKeys := agrees_of (by decide +kernel) (by decide +kernel)

theorem items_sound {table : List (String × Kind)} {words : Kind → List String} (ha : Agrees table words) (n : Nat) :
    ∀ {ts r : List Tok} {is : List Item}, parseItems table n ts = .ok (is, r) →
      ∃ its, ts = its ++ .sign '}' :: r ∧ ItemsAre words is its := by
  induction n with
  | zero =>
    intro ts r is h
    rw [parseItems.eq_def] at h
    split at h
    · cases h; exact ⟨[], rfl, .nil⟩
    · rename_i hh; cases hh
    · cases h
  | succ n ih =>
    intro ts r is h
    rw [parseItems.eq_def] at h
    split at h
    · cases h; exact ⟨[], rfl, .nil⟩
    · rename_i n' k ts' hn
      cases hn
      split at h
      · cases h
      · rename_i kind hk
        split at h
        · cases h
        · rename_i v r' hv
          split at h
          · cases h
          · rename_i is' r'' hi
            cases h
            rcases value_sound hv with ⟨vt, rfl, hvt⟩
            rcases ih hi with ⟨its, rfl, hits⟩
            rcases (ha k kind).1 hk with ⟨s, hs, rfl⟩
            exact ⟨_, (by simp), .cons hs hvt hits⟩
    · cases h

theorem items_closing {words : Kind → List String} {is : List Item} {its : List Tok} (h : ItemsAre words is its) (r : List Tok) :
    Closing (its ++ .sign '}' :: r) := by
  cases h with
  | nil => exact .inl ⟨r, rfl⟩
  | cons h hv h' => exact .inr ⟨_, _, rfl⟩

theorem items_complete {table : List (String × Kind)} {words : Kind → List String} (ha : Agrees table words)
    {is : List Item} {its : List Tok} (h : ItemsAre words is its) (r : List Tok) :
    ∀ n, its.length ≤ n → parseItems table n (its ++ .sign '}' :: r) = .ok (is, r) := by
  induction h with
  | nil => intro n _; cases n <;> rfl
  | @cons s kind v vt is ts hs hv h ih =>
    intro n hn
    simp only [List.length_cons, List.length_append] at hn
    cases n with
    | zero => omega
    | succ n =>
      have e : Tok.key s.toList :: .sign ':' :: .sign ':' :: (vt ++ ts) ++ .sign '}' :: r =
          .key s.toList :: .sign ':' :: .sign ':' :: (vt ++ (ts ++ .sign '}' :: r)) := by simp
      rw [e, parseItems]
      rw [(ha s.toList kind).2 ⟨s, hs, rfl⟩]
      simp only [value_complete hv (items_closing h r), ih n (by omega)]

theorem terms_sound (n : Nat) : ∀ {ts r : List Tok} {l : List RawItems}, parseTerms n ts = .ok (l, r) →
    ∃ tts, ts = tts ++ r ∧ TermsAre l tts := by
  induction n with
  | zero =>
    intro ts r l h
    rw [parseTerms.eq_def] at h
    split at h
    · rename_i hh; cases hh
    · cases h
    · rename_i hh; cases hh
    · cases h; exact ⟨[], rfl, .nil⟩
  | succ n ih =>
    intro ts r l h
    rw [parseTerms.eq_def] at h
    split at h
    · rename_i n' name ts' hn
      cases hn
      split at h
      · cases h
      · cases h
      · rename_i i is r' hi
        split at h
        · cases h
        · rename_i ts'' r'' ht
          cases h
          rcases items_sound term_agrees _ hi with ⟨its, rfl, hits⟩
          rcases ih ht with ⟨tts, rfl, htts⟩
          exact ⟨_, (by simp), .cons (by simp) hits htts⟩
    · cases h
    · cases h
    · cases h; exact ⟨[], rfl, .nil⟩

/-- What follows the terms of a filter: another header, or nothing. -/
def NoTerm (ts : List Tok) : Prop := ∀ r, ts ≠ .key ['t', 'e', 'r', 'm'] :: r

theorem terms_complete {l : List RawItems} {tts : List Tok} (h : TermsAre l tts) {r : List Tok} (hr : NoTerm r) :
    ∀ n, tts.length ≤ n → parseTerms n (tts ++ r) = .ok (l, r) := by
  induction h with
  | nil =>
    intro n _
    rw [List.nil_append, parseTerms.eq_def]
    split
    · exact absurd rfl (hr _)
    · exact absurd rfl (hr _)
    · exact absurd rfl (hr _)
    · rfl
  | @cons name is its l ts hne hi h ih =>
    intro n hn
    simp only [List.length_cons, List.length_append] at hn
    cases n with
    | zero => omega
    | succ n =>
      have e : Tok.key "term".toList :: .word name :: .sign '{' :: (its ++ .sign '}' :: ts) ++ r =
          .key ['t', 'e', 'r', 'm'] :: .word name :: .sign '{' :: (its ++ .sign '}' :: (ts ++ r)) := by simp
      rw [e, parseTerms]
      rw [items_complete term_agrees hi (ts ++ r) _ (by simp)]
      cases is with
      | nil => exact absurd rfl hne
      | cons i is => simp only [ih n (by omega)]

theorem filters_sound (n : Nat) : ∀ {ts : List Tok} {fs : List RawFilter}, parseFilters n ts = .ok fs → PolicyIs fs ts := by
  induction n with
  | zero =>
    intro ts fs h
    rw [parseFilters.eq_def] at h
    split at h
    · cases h; exact .nil
    · rename_i hh; cases hh
    · cases h
  | succ n ih =>
    intro ts fs h
    rw [parseFilters.eq_def] at h
    split at h
    · cases h; exact .nil
    · rename_i n' ts' hn
      cases hn
      split at h
      · cases h
      · rename_i hs r' hh
        split at h
        · cases h
        · rename_i l r'' ht
          split at h
          · cases h
          · rename_i fs' hf
            cases h
            rcases items_sound header_agrees _ hh with ⟨its, rfl, hits⟩
            rcases terms_sound _ ht with ⟨tts, rfl, htts⟩
            exact .cons hits htts (ih hf)
    · cases h

theorem policy_noTerm {fs : List RawFilter} {ts : List Tok} (h : PolicyIs fs ts) : NoTerm ts := by
  intro r hh
  cases h with
  | nil => cases hh
  | cons => exact absurd (by injection hh with h1; injection h1) (by decide : "header".toList ≠ ['t', 'e', 'r', 'm'])

theorem filters_complete {fs : List RawFilter} {ts : List Tok} (h : PolicyIs fs ts) :
    ∀ n, ts.length ≤ n → parseFilters n ts = .ok fs := by
  induction h with
  | nil => intro n _; cases n <;> rfl
  | @cons h hts terms tts fs ts hh ht r ih =>
    intro n hn
    simp only [List.length_cons, List.length_append] at hn
    cases n with
    | zero => omega
    | succ n =>
      have e : Tok.key "header".toList :: .sign '{' :: (hts ++ .sign '}' :: (tts ++ ts)) =
          .key ['h', 'e', 'a', 'd', 'e', 'r'] :: .sign '{' :: (hts ++ .sign '}' :: (tts ++ ts)) := rfl
      rw [e, parseFilters]
      rw [items_complete header_agrees hh (tts ++ ts) _ (by simp)]
      simp only [terms_complete ht (policy_noTerm r) _ (by simp : tts.length ≤ (tts ++ ts).length), ih n (by omega)]

theorem parse_iff (ts : List Tok) (fs : List RawFilter) : parse ts = .ok fs ↔ PolicyIs fs ts :=
  ⟨filters_sound _, fun h => filters_complete h _ (Nat.le_refl _)⟩

end PolicyText
end Verif
