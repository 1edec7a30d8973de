import Verif.Lemmas.PortParents

/-!
Property theorems C27: capirca/lib/port.py.
-/

namespace Verif.Props
open Verif Verif.Spec Verif.Port Verif.PyStr

/-- C27: `Port` of a text returns `v` exactly if the text is an integer text of `v` and
`0 <= v <= 65535`. -/
theorem C27_port_text (s : Str) (v : Int) : portOfStr s = .ok v ↔ IntText s v ∧ 0 ≤ v ∧ v ≤ 65535 := by
  unfold portOfStr
  cases h : pyInt s with
  | none =>
    refine ⟨fun hh => by simp [checkPort] at hh, fun hh => ?_⟩
    rw [pyInt_iff.2 hh.1] at h; cases h
  | some u =>
    have hu := pyInt_iff.1 h
    simp only [checkPort]
    constructor
    · intro hh
      split at hh
      · cases hh
      · cases hh; exact ⟨hu, by omega, by omega⟩
    · rintro ⟨h1, h2, h3⟩
      rw [pyInt_iff.2 h1] at h; cases h
      rw [if_neg (by omega)]

/-- C27: it raises `BadPortRange` exactly for integer texts out of range. -/
theorem C27_bad_range (s : Str) : portOfStr s = .error (.raised "BadPortRange") ↔
    ∃ v, IntText s v ∧ (v < 0 ∨ 65535 < v) := by
  unfold portOfStr
  cases h : pyInt s with
  | none =>
    refine ⟨fun hh => by simp [checkPort] at hh, fun ⟨v, h1, _⟩ => ?_⟩
    rw [pyInt_iff.2 h1] at h; cases h
  | some u =>
    have hu := pyInt_iff.1 h
    simp only [checkPort]
    constructor
    · intro hh
      split at hh
      next hc => exact ⟨u, hu, by omega⟩
      next => cases hh
    · rintro ⟨v, h1, h2⟩
      rw [pyInt_iff.2 h1] at h; cases h
      rw [if_pos (by omega)]

/-- C27: it raises `BadPortValue` exactly for texts that are not integers; there is no other outcome. -/
theorem C27_bad_value (s : Str) : portOfStr s = .error (.raised "BadPortValue") ↔ ¬ ∃ v, IntText s v := by
  unfold portOfStr
  cases h : pyInt s with
  | none =>
    refine ⟨fun _ ⟨v, hv⟩ => ?_, fun _ => rfl⟩
    rw [pyInt_iff.2 hv] at h; cases h
  | some u =>
    have hu := pyInt_iff.1 h
    simp only [checkPort]
    constructor
    · intro hh
      split at hh <;> simp at hh
    · intro hh; exact absurd ⟨u, hu⟩ hh

/-- C27: an integer text has one value only. -/
theorem C27_text_unique {s : Str} {v w : Int} (h : IntText s v) (h' : IntText s w) : v = w := by
  have := (pyInt_iff.2 h).symm.trans (pyInt_iff.2 h')
  cases this; rfl

/-- C27: `Port` of an integer. -/
theorem C27_port_int (i : Int) :
    (0 ≤ i ∧ i ≤ 65535 → portOfInt i = .ok i) ∧
    (i < 0 ∨ 65535 < i → portOfInt i = .error (.raised "BadPortRange")) := by
  unfold portOfInt checkPort
  exact ⟨fun h => if_neg (by omega), fun h => if_pos (by omega)⟩

/-- The text `p/w`, without comment, is split at the slash. -/
theorem mkPPP_text {s p w : Str} (h : Word s) (hs : s = p ++ '/' :: w) (hp : '/' ∉ p) (hw : '/' ∉ w) :
    (mkPPP s).port = some p ∧ (mkPPP s).protocol = some w := by
  rw [mkPPP_word h hs hp hw]
  exact ⟨rfl, rfl⟩

/-- C27: `PPP('q/w') in PPP('a-b/w2')` holds exactly when the protocols are equal and the port lies
within the bounds. -/
theorem C27_contains {a b q w w' : Str} {lo hi n : Nat} (ha : Dec a lo) (hb : Dec b hi) (hq : Dec q n)
    (hw : '/' ∉ w) (hw' : '/' ∉ w') (hs : Word (a ++ '-' :: b ++ '/' :: w')) (ho : Word (q ++ '/' :: w)) :
    PPP.contains (mkPPP (a ++ '-' :: b ++ '/' :: w')) (mkPPP (q ++ '/' :: w)) =
      .ok (decide (lo ≤ n ∧ n ≤ hi ∧ w' = w)) := by
  have hqs : '/' ∉ q := dec_noChar hq not_digit_slash
  have hab : '/' ∉ a ++ '-' :: b := by
    simp only [List.mem_append, List.mem_cons, not_or]
    exact ⟨dec_noChar ha not_digit_slash, by decide, dec_noChar hb not_digit_slash⟩
  obtain ⟨h1, h2⟩ := mkPPP_text hs rfl hab hw'
  obtain ⟨h3, h4⟩ := mkPPP_text ho rfl hqs hw
  have hsp : splitOn '-' (a ++ '-' :: b) = [a, b] := by
    rw [splitOn_app (dec_noChar ha not_digit_dash), splitOn_none (dec_noChar hb not_digit_dash)]
  have hst : (mkPPP (a ++ '-' :: b ++ '/' :: w')).start = .ok (lo : Int) := by
    unfold PPP.start
    rw [h1]
    simp [hsp, pyInt_dec ha]
  have hen : (mkPPP (a ++ '-' :: b ++ '/' :: w')).end = .ok (hi : Int) := by
    unfold PPP.end
    rw [h1]
    simp [hsp, pyInt_dec hb]
  have hpo : (mkPPP (q ++ '/' :: w)).portInt = some (n : Int) := by
    unfold PPP.portInt
    rw [h3]
    exact pyInt_dec hq
  unfold PPP.contains
  rw [hst, hpo, hen, h2, h4]
  dsimp only
  rcases Classical.em (lo ≤ n) with hl | hl
  · rw [if_pos (by omega)]
    refine congrArg _ ?_
    rw [Bool.eq_iff_iff, Bool.and_eq_true, decide_eq_true_iff, decide_eq_true_iff, beq_iff_eq, Option.some.injEq]
    exact ⟨fun ⟨x, y⟩ => ⟨hl, by omega, y⟩, fun ⟨_, x, y⟩ => ⟨by omega, y⟩⟩
  · rw [if_neg (by omega)]
    refine congrArg _ ?_
    rw [eq_comm, decide_eq_false_iff_not]
    exact fun h => hl h.1

/-- C27: containment in something that is not a range raises `InvalidRange`. -/
theorem C27_contains_not_range {s o : PPP} (hs : ∀ p, s.port = some p → '-' ∉ p) :
    PPP.contains s o = .error (.raised "InvalidRange") := by
  have : ∀ x, s.start ≠ .ok x := by
    intro x
    unfold PPP.start
    cases hp : s.port with
    | none => simp
    | some p =>
      have hn := hs p hp
      have : p.contains '-' = false := by simpa [List.contains_iff_mem] using hn
      simp [hn]
  unfold PPP.contains
  split
  next x _ hx _ => exact absurd hx (this x)
  next => rfl

/-- C27: comparison of single ports: equal iff ports and protocols are equal; the order ignores the
protocol. -/
theorem C27_compare {p q w w' : Str} {m n : Nat} (hp : Dec p m) (hq : Dec q n) (hw : '/' ∉ w) (hw' : '/' ∉ w')
    (h1 : Word (p ++ '/' :: w)) (h2 : Word (q ++ '/' :: w')) :
    PPP.eq (mkPPP (p ++ '/' :: w)) (mkPPP (q ++ '/' :: w')) = .ok (decide (m = n ∧ w = w')) ∧
    PPP.lt (mkPPP (p ++ '/' :: w)) (mkPPP (q ++ '/' :: w')) = .ok (decide (m < n)) ∧
    PPP.gt (mkPPP (p ++ '/' :: w)) (mkPPP (q ++ '/' :: w')) = .ok (decide (n < m)) ∧
    PPP.le (mkPPP (p ++ '/' :: w)) (mkPPP (q ++ '/' :: w')) = .ok (decide (m ≤ n)) ∧
    PPP.ge (mkPPP (p ++ '/' :: w)) (mkPPP (q ++ '/' :: w')) = .ok (decide (n ≤ m)) := by
  obtain ⟨a1, a2⟩ := mkPPP_text h1 rfl (dec_noChar hp not_digit_slash) hw
  obtain ⟨b1, b2⟩ := mkPPP_text h2 rfl (dec_noChar hq not_digit_slash) hw'
  have hsp : (mkPPP (p ++ '/' :: w)).isSinglePort = true := by
    unfold PPP.isSinglePort
    rw [a1]
    have := (dec_digits hp).1
    have h := dec_noChar hp not_digit_dash
    cases p with
    | nil => exact absurd rfl this
    | cons c cs => simpa using h
  have i1 : (mkPPP (p ++ '/' :: w)).portInt = some (m : Int) := by
    unfold PPP.portInt; rw [a1]; exact pyInt_dec hp
  have i2 : (mkPPP (q ++ '/' :: w')).portInt = some (n : Int) := by
    unfold PPP.portInt; rw [b1]; exact pyInt_dec hq
  refine ⟨?_, ?_, ?_, ?_, ?_⟩
  · unfold PPP.eq
    rw [hsp, i1, i2, a2, b2, if_pos rfl]
    dsimp only
    refine congrArg _ ?_
    rw [Bool.eq_iff_iff, Bool.and_eq_true, decide_eq_true_iff, beq_iff_eq, beq_iff_eq, Option.some.injEq]
    exact ⟨fun ⟨x, y⟩ => ⟨by omega, y⟩, fun ⟨x, y⟩ => ⟨by omega, y⟩⟩
  all_goals
    first | unfold PPP.lt | unfold PPP.gt | unfold PPP.le | unfold PPP.ge
    unfold PPP.cmp
    rw [hsp, i1, i2]
    simp

example : portOfStr "443".toList = .ok 443 ∧ portOfStr " 0".toList = .ok 0 ∧
    portOfStr "65536".toList = .error (.raised "BadPortRange") ∧
    portOfStr "-1".toList = .error (.raised "BadPortRange") ∧
    portOfStr "http".toList = .error (.raised "BadPortValue") ∧
    portOfStr "".toList = .error (.raised "BadPortValue") := by decide

theorem dec_example : Dec "80".toList 80 ∧ Dec "90".toList 90 := by
  refine ⟨⟨?_, by decide⟩, ⟨?_, by decide⟩⟩
  · exact NumFrom.more (c := '8') (by unfold Digit; decide) (NumFrom.one (acc := 8) (c := '0') (by unfold Digit; decide))
  · exact NumFrom.more (c := '9') (by unfold Digit; decide) (NumFrom.one (acc := 9) (c := '0') (by unfold Digit; decide))

example : PPP.contains (mkPPP "80-90/tcp".toList) (mkPPP "80/tcp".toList) = .ok true ∧
    PPP.contains (mkPPP "80-90/tcp".toList) (mkPPP "80/udp".toList) = .ok false ∧
    PPP.contains (mkPPP "80/tcp".toList) (mkPPP "80/tcp".toList) = .error (.raised "InvalidRange") := by decide

end Verif.Props
