import Verif.Spec.JuniperText
import Verif.Lemmas.VersaTree
import Verif.Lemmas.JuniperComment
import Verif.Lemmas.Translate
import Verif.Lemmas.Parse

/-!
Lemmas for C184: reading the text of a Juniper filter.
-/

namespace Verif.Lemmas.JuniperTextL
open Verif Verif.Juniper Verif.Spec.JunosText Verif.Spec.VersaText Verif.Lemmas.VersaTreeL
open Verif.Spec (Blank)
open Verif.Lemmas.JuniperCommentL (infix_strip)

/-! ### pieces of lines -/

theorem says_word {w : Str} (h : Plain w) : Says w [.word w] := fun _ hr => lex_word h hr

theorem says_sp {a b : Str} {s t : List Spec.VersaText.Tok} (ha : Says a s) (hb : Says b t) : Says (a ++ ' ' :: b) (s ++ t) := by
  intro r hr
  rw [List.append_assoc, List.cons_append, ha _ (delim_sp _), lex_sp, hb r hr, List.append_assoc]

theorem says_semi {a : Str} {s : List Spec.VersaText.Tok} (ha : Says a s) : Says (a ++ [';']) (s ++ [.semi]) := by
  intro r _
  rw [List.append_assoc, List.singleton_append, ha _ (delim_semi _), lex_semi, List.append_assoc]
  rfl

theorem says_open {a : Str} {s : List Spec.VersaText.Tok} (ha : Says a s) : Says (a ++ [' ', '{']) (s ++ [.opn]) := by
  intro r _
  rw [List.append_assoc]
  show lex (.out []) (a ++ ' ' :: '{' :: r) = _
  rw [ha _ (delim_sp _), lex_sp, lex_opn, List.append_assoc]
  rfl

theorem says_close : Says ['}'] [.cls] := by
  intro r _
  show lex (.out []) ('}' :: r) = _
  rw [lex_cls]
  rfl

theorem lex_quote : ∀ {w : Str} (u r : Str), '"' ∉ w → lex (.quote u) (w ++ '"' :: r) = .word (u ++ w) :: lex (.out []) r
  | [], u, r, _ => by
    show lex (.quote u) ('"' :: r) = _
    rw [lex, if_pos rfl, List.append_nil]
  | c :: w, u, r, h => by
    show lex (.quote u) (c :: (w ++ '"' :: r)) = _
    rw [lex, if_neg (fun e => h (by rw [e]; exact List.mem_cons_self ..)),
      lex_quote (u ++ [c]) r (fun hh => h (List.mem_cons_of_mem _ hh)), List.append_assoc]
    rfl

theorem says_quoted {w : Str} (h : '"' ∉ w) : Says ('"' :: (w ++ ['"'])) [.word w] := by
  intro r _
  have e : ('"' :: (w ++ ['"'])) ++ r = '"' :: (w ++ '"' :: r) := by simp
  rw [e, lex_char (by decide), if_pos rfl]
  show flush [] ++ lex (.quote []) (w ++ '"' :: r) = _
  rw [lex_quote [] r h]
  rfl

theorem wordsIn_cases : ∀ s : Str, (wordsIn s = [s]) ∨ ∃ w t, s = w ++ ' ' :: t ∧ wordsIn s = w :: wordsIn t ∧ t.length < s.length
  | [] => .inl rfl
  | c :: s => by
    by_cases hc : c = ' '
    · subst hc
      refine .inr ⟨[], s, rfl, ?_, by simp⟩
      rw [wordsIn, if_pos rfl]
    · rcases wordsIn_cases s with h | ⟨w, t, e, h, hl⟩
      · left
        rw [wordsIn, if_neg hc, h]
      · refine .inr ⟨c :: w, t, by rw [e]; rfl, ?_, ?_⟩
        · rw [wordsIn, if_neg hc, h]
        · simp; omega

theorem says_wordsIn : ∀ (n : Nat) (s : Str), s.length ≤ n → (∀ w ∈ wordsIn s, Tidy w) → Says s ((wordsIn s).map .word)
  | 0, s, hn, h => by
    have : s = [] := List.length_eq_zero_iff.1 (by omega)
    subst this
    exact absurd rfl (h [] (by simp [wordsIn])).1.1
  | n + 1, s, hn, h => by
    rcases wordsIn_cases s with e | ⟨w, t, e, e2, hl⟩
    · rw [e] at h ⊢
      exact says_word (h s (by simp)).1
    · rw [e2] at h ⊢
      have ih := says_wordsIn n t (by omega) (fun v hv => h v (List.mem_cons_of_mem _ hv))
      have := says_sp (says_word (h w (List.mem_cons_self ..)).1) ih
      rw [← e] at this
      exact this

/-- The text starts with something other than white space. -/
def Starts (s : Str) : Prop := ∃ c t, s = c :: t ∧ PyStr.isSpace c = false

theorem starts_app {s : Str} (h : Starts s) (t : Str) : Starts (s ++ t) := by
  obtain ⟨c, u, rfl, hc⟩ := h
  exact ⟨c, u ++ t, rfl, hc⟩

theorem starts_clean {w : Str} (h : Tidy w) : Starts w := by
  obtain ⟨c, t, rfl⟩ := List.exists_cons_of_ne_nil h.1.1
  exact ⟨c, t, rfl, h.2 c (List.mem_cons_self ..)⟩

theorem neat_says {s : Str} (h : Neat s) : Starts s ∧
    Says s ((if s.head? = some '"' then [(s.drop 1).dropLast] else wordsIn s).map .word) := by
  rcases h with ⟨w, hw, rfl⟩ | ⟨h1, h2⟩
  · refine ⟨⟨'"', _, rfl, by decide⟩, ?_⟩
    rw [if_pos (show ('"' :: (w ++ ['"'])).head? = some '"' from rfl)]
    have : (('"' :: (w ++ ['"'])).drop 1).dropLast = w := by simp
    rw [this]
    exact says_quoted hw
  · rw [if_neg h1]
    refine ⟨?_, says_wordsIn _ s (Nat.le_refl _) h2⟩
    rcases wordsIn_cases s with e | ⟨w, t, e, e2, _⟩
    · rw [e] at h2
      exact starts_clean (h2 s (by simp))
    · rw [e2] at h2
      rw [e]
      exact starts_app (starts_clean (h2 w (List.mem_cons_self ..))) _

/-- Characters of numbers, ports and masks. -/
def NumChar (c : Char) : Prop := c.isDigit = true ∨ c = '.' ∨ c = '-' ∨ c = '/'

theorem clean_num {w : Str} (h0 : w ≠ []) (h : ∀ c ∈ w, NumChar c) : Tidy w := by
  have key : ∀ c, NumChar c → c ≠ '"' ∧ c ≠ '{' ∧ c ≠ '}' ∧ c ≠ ';' ∧ ¬ Gap c ∧ PyStr.isSpace c = false ∧ c ≠ '*' := by
    rintro c (hd | rfl | rfl | rfl)
    · have ne : ∀ d : Char, d.isDigit = false → c ≠ d := by
        rintro d hd' rfl
        rw [hd] at hd'
        cases hd'
      refine ⟨ne _ (by decide), ne _ (by decide), ne _ (by decide), ne _ (by decide), ?_, ?_, ne _ (by decide)⟩
      · rintro (e | e | e | e)
        · exact ne _ (by decide) e
        · exact ne _ (by decide) e
        · exact ne _ (by decide) e
        · exact ne _ (by decide) e
      · have hd' : 48 ≤ c.toNat ∧ c.toNat ≤ 57 := by
          unfold Char.isDigit at hd
          rw [Bool.and_eq_true, decide_eq_true_eq, decide_eq_true_eq] at hd
          exact ⟨UInt32.le_iff_toNat_le.1 hd.1, UInt32.le_iff_toNat_le.1 hd.2⟩
        unfold PyStr.isSpace
        simp only [Bool.or_eq_false_iff, Bool.and_eq_false_iff, decide_eq_false_iff_not, beq_eq_false_iff_ne]
        omega
    · decide
    · decide
    · decide
  refine ⟨⟨h0, fun c hc => ?_, ?_⟩, fun c hc => (key c (h c hc)).2.2.2.2.2.1⟩
  · obtain ⟨a, b, d, e, f, _⟩ := key c (h c hc)
    exact ⟨a, b, d, e, f⟩
  · rintro ⟨a, b, e⟩
    have : '*' ∈ w := by rw [← e]; simp
    exact (key _ (h _ this)).2.2.2.2.2.2 rfl

theorem num_num (n : Nat) : numText n ≠ [] ∧ ∀ c ∈ numText n, NumChar c := by
  have hd : numText n = Nat.toDigits 10 n := Nat.toList_repr
  rw [hd]
  exact ⟨Nat.toDigits_ne_nil, fun c hc => .inl (Nat.isDigit_of_mem_toDigits (by decide) (by decide) hc)⟩

theorem num_app {a b : Str} {x : Char} (ha : a ≠ [] ∧ ∀ c ∈ a, NumChar c) (hx : NumChar x)
    (hb : b ≠ [] ∧ ∀ c ∈ b, NumChar c) : (a ++ x :: b) ≠ [] ∧ ∀ c ∈ a ++ x :: b, NumChar c := by
  refine ⟨by simp, fun c hc => ?_⟩
  rcases List.mem_append.1 hc with hc | hc
  · exact ha.2 c hc
  · rcases List.mem_cons.1 hc with rfl | hc
    · exact hx
    · exact hb.2 c hc

theorem mask_num (m : Summarizer.MaskText) : maskStr m ≠ [] ∧ ∀ c ∈ maskStr m, NumChar c := by
  cases m with
  | plen n => exact num_num n
  | quad a b c d =>
    have dot : NumChar '.' := .inr (.inl rfl)
    exact num_app (num_num a) dot (num_app (num_num b) dot (num_app (num_num c) dot (num_num d)))

theorem mask_word (m : Summarizer.MaskText) : maskStr m = maskWord m := by
  cases m with
  | plen n => rfl
  | quad a b c d => simp [maskStr, maskWord, List.intercalate, dec, numText]

theorem tok_says {text : Ver → Nat → Nat → Str} {t : Juniper.Tok}
    (h : match t with | .w s => Neat s.toList | .pfx v a p => Tidy (text v a p) | _ => True) :
    Starts (tokText text t) ∧ Says (tokText text t) ((tokWords text t).map .word) := by
  have clean : ∀ {w : Str}, Tidy w → Starts w ∧ Says w ([w].map .word) := fun h => ⟨starts_clean h, says_word h.1⟩
  cases t with
  | w s => exact neat_says h
  | num n => exact clean (clean_num (num_num n).1 (num_num n).2)
  | range a b =>
    have := num_app (num_num a) (x := '-') (.inr (.inr (.inl rfl))) (num_num b)
    have h2 := clean (clean_num this.1 this.2)
    have e : tokWords text (.range a b) = [numText a ++ '-' :: numText b] := by simp [tokWords, dec, numText]
    rw [e]
    exact h2
  | pfx v a p => exact clean h
  | masked a m =>
    have := num_app (mask_num a) (x := '/') (.inr (.inr (.inr rfl))) (mask_num m)
    have h2 := clean (clean_num this.1 this.2)
    have e : tokWords text (.masked a m) = [maskStr a ++ '/' :: maskStr m] := by simp [tokWords, mask_word]
    rw [e]
    exact h2

theorem join_says {text : Ver → Nat → Nat → Str} : ∀ {ws : List Juniper.Tok}, NeatStmt text ws →
    Starts (spaceJoin (ws.map (tokText text))) ∧
      Says (spaceJoin (ws.map (tokText text))) ((ws.flatMap (tokWords text)).map .word)
  | [], h => absurd rfl h.1
  | [t], h => by
    have := tok_says (h.2 t (by simp))
    simpa [spaceJoin] using this
  | t :: u :: ws, h => by
    have h1 := tok_says (h.2 t (by simp))
    have ih := join_says (ws := u :: ws) ⟨by simp, fun x hx => h.2 x (List.mem_cons_of_mem _ hx)⟩
    refine ⟨starts_app h1.1 _, ?_⟩
    have := says_sp h1.2 ih.2
    rw [← List.map_append] at this
    exact this

theorem stmt_says {text : Ver → Nat → Nat → Str} {ws : List Juniper.Tok} (h : NeatStmt text ws) :
    Starts (stmtText text ws) ∧ Says (stmtText text ws) (tokItem (stmtItem text ws)) :=
  ⟨starts_app (join_says h).1 _, says_semi (join_says h).2⟩

/-! ### lines given to `Append` -/

/-- What becomes of the lines. -/
inductive Given : List (Bool × Str) → List Str → Prop
  | nil : Given [] []
  | verb {l : Str} {ls out} : Given ls out → Given ((true, l) :: ls) (l :: out)
  | line (k : Nat) {l : Str} {ls out} : Given ls out → Given ((false, l) :: ls) ((List.replicate k ' ' ++ PyStr.strip l) :: out)

theorem append_lines {c c' : Config} {l : Str} (h : append c l = .ok c') :
    ∃ k, c'.lines = c.lines ++ [List.replicate k ' ' ++ PyStr.strip l] := by
  unfold append at h
  obtain ⟨c1, h1, h⟩ := bind_ok h
  obtain ⟨c2, h2, h⟩ := bind_ok h
  cases h
  have e1 : c1.lines = c.lines := by
    unfold closeBrace at h1
    split at h1
    · split at h1
      · cases h1
      · cases h1; rfl
    · cases h1; rfl
  have e2 : c2.lines = (addLine c1 l).lines := by
    unfold closeComment at h2
    split at h2
    · split at h2
      · cases h2
      · cases h2; rfl
    · cases h2; rfl
  have e3 : (openLine c2 l).lines = c2.lines := by
    unfold openLine
    dsimp only
    split <;> split <;> rfl
  exact ⟨c1.indent.toNat, by rw [e3, e2, addLine, e1]⟩

theorem appendAll_given : ∀ {ls : List (Bool × Str)} {c c' : Config}, appendAll c ls = .ok c' →
    ∃ out, c'.lines = c.lines ++ out ∧ Given ls out
  | [], c, c', h => by
    cases h
    exact ⟨[], by simp, .nil⟩
  | (true, l) :: ls, c, c', h => by
    rw [appendAll] at h
    obtain ⟨out, h1, h2⟩ := appendAll_given h
    refine ⟨l :: out, ?_, .verb h2⟩
    rw [h1, appendVerbatim]
    simp
  | (false, l) :: ls, c, c', h => by
    rw [appendAll] at h
    obtain ⟨c1, h0, h⟩ := bind_ok h
    obtain ⟨k, hk⟩ := append_lines h0
    obtain ⟨out, h1, h2⟩ := appendAll_given h
    refine ⟨_ :: out, ?_, .line k h2⟩
    rw [h1, hk]
    simp

theorem build_given {n : Nat} {ls : List (Bool × Str)} {out : List Str} (h : build n ls = .ok out) : Given ls out := by
  unfold build at h
  obtain ⟨c, h1, h2⟩ := bind_ok h
  obtain ⟨o, e, g⟩ := appendAll_given h1
  unfold finish at h2
  split at h2
  · cases h2
  · cases h2
    rw [e]
    exact g

/-- What is read of lines given to `Append`. -/
def Tells (ls : List (Bool × Str)) (ts : List Spec.VersaText.Tok) : Prop := ∀ out, Given ls out → Lines out ts

theorem tells_nil : Tells [] [] := by
  intro out h
  cases h
  exact lines_nil

theorem given_split : ∀ {a b : List (Bool × Str)} {out : List Str}, Given (a ++ b) out →
    ∃ x y, out = x ++ y ∧ Given a x ∧ Given b y
  | [], b, out, h => ⟨[], out, rfl, .nil, h⟩
  | (true, l) :: a, b, _, .verb h => by
    obtain ⟨x, y, rfl, h1, h2⟩ := given_split h
    exact ⟨l :: x, y, rfl, .verb h1, h2⟩
  | (false, l) :: a, b, _, .line k h => by
    obtain ⟨x, y, rfl, h1, h2⟩ := given_split h
    exact ⟨_ :: x, y, rfl, .line k h1, h2⟩

theorem tells_append {a b : List (Bool × Str)} {s t : List Spec.VersaText.Tok} (ha : Tells a s) (hb : Tells b t) :
    Tells (a ++ b) (s ++ t) := by
  intro out h
  obtain ⟨x, y, rfl, h1, h2⟩ := given_split h
  exact lines_append (ha _ h1) (hb _ h2)

theorem lines_pad {s : Str} {ts : List Spec.VersaText.Tok} (k : Nat) (h : Says s ts) : Lines [List.replicate k ' ' ++ s] ts := by
  intro r hr
  show lex (.out []) ('\n' :: (List.replicate k ' ' ++ s) ++ [] ++ r) = _
  rw [List.append_nil, List.cons_append, lex_nl, List.append_assoc, lex_spaces, h r hr]

theorem tells_strip {l s : Str} {ts : List Spec.VersaText.Tok} (hs : PyStr.strip l = s) (h : Says s ts) : Tells [plainLine l] ts := by
  intro out ho
  generalize e : [plainLine l] = ls at ho
  cases ho with
  | nil => cases e
  | verb => cases e
  | line k hh =>
    cases e
    cases hh
    rw [hs]
    exact lines_pad k h

theorem strip_self {s : Str} (h : Starts s) (hl : ∀ x, s.getLast? = some x → PyStr.isSpace x = false) : PyStr.strip s = s := by
  obtain ⟨c, t, rfl, hc⟩ := h
  have := PyStr.strip_around (a := []) (s := c :: t) (b := []) (by intro _ h; cases h) (by intro _ h; cases h)
    (by intro x hx; simp at hx; rw [← hx]; exact hc) hl
  simpa using this

theorem tells_line {s : Str} {x : Char} {ts : List Spec.VersaText.Tok} (h1 : Starts (s ++ [x])) (hx : PyStr.isSpace x = false)
    (h : Says (s ++ [x]) ts) : Tells [plainLine (s ++ [x])] ts :=
  tells_strip (strip_self h1 (by intro y hy; simp at hy; rw [← hy]; exact hx)) h

theorem tells_cons {l : Str} {ls : List Str} {s t : List Spec.VersaText.Tok} (h1 : Tells [plainLine l] s)
    (h2 : Tells (ls.map plainLine) t) : Tells ((l :: ls).map plainLine) (s ++ t) := tells_append (a := [_]) h1 h2

/-! ### comments -/

theorem quiet_join {c : Char} (h1 : c ≠ '*') (h2 : c ≠ '/') {b : Str} (hb : Quiet b) : ∀ {a : Str}, Quiet a → Quiet (a ++ c :: b)
  | [], _ => quiet_pre h1 hb
  | x :: a, ha => by
    have ih := quiet_join h1 h2 hb (a := a) (fun h => ha (List.infix_cons_iff.2 (.inr h)))
    intro hi
    rcases List.infix_cons_iff.1 hi with ⟨t, ht⟩ | hp
    · cases a with
      | nil =>
        injection ht with _ h4
        injection h4 with h5 _
        exact h2 h5.symm
      | cons y a =>
        injection ht with h3 h4
        injection h4 with h5 _
        exact ha ⟨[], a, by rw [h3, h5]; rfl⟩
    · exact ih hp

theorem quiet_nil : Quiet [] := by unfold Quiet; decide

theorem quiet_spaces {s : Str} (h : Quiet s) : ∀ k, Quiet (List.replicate k ' ' ++ s)
  | 0 => h
  | k + 1 => by
    rw [List.replicate_succ, List.cons_append]
    exact quiet_pre (by decide) (quiet_spaces h k)

theorem quiet_strip {s : Str} (h : Quiet s) : Quiet (PyStr.strip s) := fun hh => h (infix_strip hh)

theorem lex_inside {s r : Str} (h : Quiet s) : lex .comment (s ++ '\n' :: r) = lex .comment ('\n' :: r) := by
  have e1 : lex .comment ('\n' :: r) = lex .comment r := by
    rw [lex]
    intro s' e _
    exact absurd e (by decide)
  have e2 := lex_comment_in (s := s ++ ['\n']) (r := r) (quiet_join (b := []) (by decide) (by decide) quiet_nil h) (by simp)
  rw [List.append_assoc, List.singleton_append] at e2
  rw [e1, e2]

theorem lex_lines : ∀ {ls : List Str} {out : List Str}, Given (ls.map plainLine) out → (∀ l ∈ ls, Quiet l) → ∀ r,
    lex .comment (broken out ++ '\n' :: r) = lex .comment ('\n' :: r)
  | [], _, .nil, _, r => rfl
  | l :: ls, _, .line k h, hq, r => by
    have ih := lex_lines h (fun l hl => hq l (List.mem_cons_of_mem _ hl)) r
    rename_i out
    have hd : ∃ r', broken out ++ '\n' :: r = '\n' :: r' := by
      cases out with
      | nil => exact ⟨_, rfl⟩
      | cons o out => exact ⟨_, rfl⟩
    obtain ⟨r', e⟩ := hd
    have e2 : broken ((List.replicate k ' ' ++ PyStr.strip l) :: out) ++ '\n' :: r =
        ('\n' :: (List.replicate k ' ' ++ PyStr.strip l)) ++ '\n' :: r' := by
      rw [← e]; simp [broken]
    rw [e2, lex_inside (quiet_pre (by decide) (quiet_spaces (quiet_strip (hq l (List.mem_cons_self ..))) k)), ← e, ih]

theorem tells_block {l0 l1 : Str} {mids : List Str} (h0 : ∃ x, PyStr.strip l0 = '/' :: '*' :: x ∧ Quiet x)
    (hm : ∀ m ∈ mids, Quiet m) (h1 : ∃ y, PyStr.strip l1 = y ++ ['*', '/'] ∧ Quiet y ∧ y.getLast? ≠ some '*') :
    Tells ((l0 :: mids ++ [l1]).map plainLine) [] := by
  intro out ho
  rw [List.map_append] at ho
  obtain ⟨a, b, rfl, ha, hb⟩ := given_split ho
  obtain ⟨x, hx, qx⟩ := h0
  obtain ⟨y, hy, qy, ly⟩ := h1
  rw [List.map_cons] at ha
  have ha : ∃ k o, a = (List.replicate k ' ' ++ PyStr.strip l0) :: o ∧ Given (mids.map plainLine) o := by
    generalize e : plainLine l0 :: List.map plainLine mids = ls at ha
    cases ha with
    | nil => cases e
    | verb => cases e
    | line k hh => cases e; exact ⟨k, _, rfl, hh⟩
  have hb : ∃ k, b = [List.replicate k ' ' ++ PyStr.strip l1] := by
    generalize e : List.map plainLine [l1] = ls at hb
    cases hb with
    | nil => cases e
    | verb => cases e
    | line k hh => cases e; cases hh; exact ⟨k, rfl⟩
  clear ho
  obtain ⟨k, o, rfl, ho⟩ := ha
  obtain ⟨m, rfl⟩ := hb
  intro r hr
  have e : broken (((List.replicate k ' ' ++ PyStr.strip l0) :: o) ++ [List.replicate m ' ' ++ PyStr.strip l1]) ++ r =
      '\n' :: (List.replicate k ' ' ++ '/' :: '*' :: (x ++ (broken o ++ '\n' :: (List.replicate m ' ' ++ (y ++ '*' :: '/' :: r))))) := by
    rw [hx, hy]; simp [broken]
  have hd : ∃ r', broken o ++ '\n' :: (List.replicate m ' ' ++ (y ++ '*' :: '/' :: r)) = '\n' :: r' := by
    cases o with
    | nil => exact ⟨_, rfl⟩
    | cons o out => exact ⟨_, rfl⟩
  obtain ⟨r', e'⟩ := hd
  rw [e, lex_nl, lex_spaces, lex_comment_start, e', lex_inside qx, ← e', lex_lines ho hm]
  have := lex_comment_in (s := '\n' :: (List.replicate m ' ' ++ y)) (r := '*' :: '/' :: r)
    (quiet_pre (by decide) (quiet_spaces qy m)) (by
      rw [List.getLast?_cons, List.getLast?_append]
      cases hy' : y.getLast? with
      | some z =>
        rw [hy'] at ly
        simpa using ly
      | none =>
        cases m with
        | zero => simp
        | succ m => simp [List.getLast?_replicate])
  have e3 : '\n' :: (List.replicate m ' ' ++ (y ++ '*' :: '/' :: r)) = ('\n' :: (List.replicate m ' ' ++ y)) ++ '*' :: '/' :: r := by simp
  rw [e3, this, lex_comment_end]
  rfl

theorem strip_first (s : Str) : ∃ x, PyStr.strip (' ' :: '/' :: '*' :: s) = '/' :: '*' :: x ∧ x <:+: s := by
  have e : PyStr.lstrip (' ' :: '/' :: '*' :: s) = '/' :: '*' :: s := by
    unfold PyStr.lstrip
    rw [List.dropWhile_cons_of_pos (by decide), List.dropWhile_cons_of_neg (by decide)]
  unfold PyStr.strip PyStr.rstrip
  rw [e]
  have e2 : ('/' :: '*' :: s).reverse = s.reverse ++ ['*', '/'] := by simp
  rw [e2, List.dropWhile_append]
  split
  · exact ⟨[], by decide, List.nil_infix⟩
  · refine ⟨(s.reverse.dropWhile PyStr.isSpace).reverse, by simp, ?_⟩
    have := (List.dropWhile_suffix PyStr.isSpace (l := s.reverse)).isInfix
    rw [← List.reverse_infix] at this
    simpa using this

theorem strip_last (s : Str) : ∃ y, PyStr.strip (s ++ [' ', '*', '/']) = y ++ ['*', '/'] ∧
    (y = [] ∨ ∃ z, y = z ++ [' '] ∧ z <:+: s) := by
  unfold PyStr.strip PyStr.lstrip
  rw [List.dropWhile_append]
  split
  · exact ⟨[], by decide, .inl rfl⟩
  · refine ⟨s.dropWhile PyStr.isSpace ++ [' '], ?_, .inr ⟨_, rfl, (List.dropWhile_suffix _).isInfix⟩⟩
    unfold PyStr.rstrip
    have : (List.dropWhile PyStr.isSpace s ++ [' ', '*', '/']).reverse = '/' :: '*' :: ' ' :: (List.dropWhile PyStr.isSpace s).reverse := by simp
    rw [this, List.dropWhile_cons_of_neg (by decide)]
    simp

theorem quiet_infix {a b : Str} (h : a <:+: b) (hb : Quiet b) : Quiet a := fun hh => hb (hh.trans h)

end Verif.Lemmas.JuniperTextL
