import Verif.Spec.Simple
import Verif.Lemmas.IncludeText
import Verif.Lemmas.Port

/-! Lemmas about the line-oriented policy parser. -/

namespace Verif
namespace SimpleL
open Spec Spec.Simple PyStr Verif.Simple Port

/-! ### lines and words -/

theorem trim_iff {raw l : Str} : Trim raw l ↔ strip raw = l := by
  constructor
  · rintro ⟨a, b, rfl, ha, hb, h1, h2⟩
    exact strip_around ha hb h1 h2
  · rintro rfl
    obtain ⟨a, b, ha, hb, h⟩ := strip_decomp raw
    refine ⟨a, b, h, ha, hb, fun c hc => ?_, fun c hc => ?_⟩
    · unfold strip at hc
      obtain ⟨x, g1, g2, g3⟩ := @dropEnd_eq isSpace (lstrip raw)
      obtain ⟨y, k1, k2, k3⟩ := @dropWhile_eq isSpace raw
      apply k3 c
      have e : lstrip raw = rstrip (lstrip raw) ++ x := g1
      unfold lstrip at e hc
      rw [e, List.head?_append, hc]
      rfl
    · obtain ⟨x, g1, g2, g3⟩ := @dropEnd_eq isSpace (lstrip raw)
      exact g3 c hc

theorem linesAre_iff {text : Str} {ls : List Str} : LinesAre text ls ↔ (splitOn '\n' text).map strip = ls := by
  constructor
  · intro h
    induction h with
    | last h1 h2 => rw [splitOn_none h1, List.map_singleton, trim_iff.1 h2]
    | more h1 h2 _ ih => rw [splitOn_app h1, List.map_cons, trim_iff.1 h2, ih]
  · rintro rfl
    have key : ∀ (n : Nat) (text : Str), text.length ≤ n → LinesAre text ((splitOn '\n' text).map strip) := by
      intro n
      induction n with
      | zero =>
        intro text h
        cases List.length_eq_zero_iff.1 (Nat.le_zero.1 h)
        exact .last (by simp) (trim_iff.2 rfl)
      | succ n ih =>
        intro text h
        by_cases hn : '\n' ∈ text
        · obtain ⟨a, b, rfl, ha⟩ := List.eq_append_cons_of_mem hn
          rw [splitOn_app ha]
          refine .more ha (trim_iff.2 rfl) (ih b ?_)
          simp at h; omega
        · rw [splitOn_none hn]
          exact .last hn (trim_iff.2 rfl)
    exact key _ _ (Nat.le_refl _)

theorem words_nil {s : Str} : words s = [] ↔ Blank s := by
  constructor
  · intro h
    obtain ⟨a, h1, h2, h3⟩ := @dropWhile_eq isSpace s
    unfold words at h
    rw [h1, wordsAux_blank h2] at h
    cases hd : List.dropWhile isSpace s with
    | nil =>
      rw [hd, List.append_nil] at h1
      rw [h1]
      exact h2
    | cons x xs =>
      rw [hd] at h
      have hx := h3 x (by rw [hd]; rfl)
      rw [wordsAux, hx, if_neg (by simp)] at h
      obtain ⟨v, rest, _, _, _, g⟩ := wordsAux_first xs [x] (by simp)
      rw [g] at h
      cases h
  · intro h
    unfold words
    have := wordsAux_blank h []
    rw [List.append_nil] at this
    rw [this]
    rfl

theorem wordsAre_iff {s : Str} {ws : List Str} : WordsAre s ws ↔ words s = ws := by
  constructor
  · intro h
    induction h with
    | nil h => exact words_nil.2 h
    | cons h1 h2 h3 h4 _ ih => exact words_cons.2 ⟨_, _, rfl, h1, h2, h3, h4, ih⟩
  · induction ws generalizing s with
    | nil => exact fun h => .nil (words_nil.1 h)
    | cons w ws ih =>
      intro h
      obtain ⟨sp, rest, rfl, h1, h2, h3, h4, h5⟩ := words_cons.1 h
      exact .cons h1 h2 h3 h4 (ih h5)

/-! ### names -/

theorem nameChar_iff {c : Char} : nameChar c = true ↔ c ∈ "-_.0123456789ABCDEFGHIJKLMNOPQRSTUVWXYZ".toList := by
  constructor
  · intro h
    have hn : c.toNat < 128 := by
      unfold nameChar isDigit at h
      simp only [Bool.or_eq_true, beq_iff_eq, Bool.and_eq_true, decide_eq_true_eq, Char.le_def, UInt32.le_iff_toNat_le] at h
      rcases h with (((rfl | rfl) | rfl) | h) | h
      · decide
      · decide
      · decide
      · exact Nat.lt_of_le_of_lt h.2 (by decide)
      · exact Nat.lt_of_le_of_lt h.2 (by decide)
    have key : ∀ n < 128, nameChar (Char.ofNat n) = true →
        Char.ofNat n ∈ "-_.0123456789ABCDEFGHIJKLMNOPQRSTUVWXYZ".toList := by decide +kernel
    have := key c.toNat hn
    rw [Char.ofNat_toNat] at this
    exact this h
  · have key : ∀ c ∈ "-_.0123456789ABCDEFGHIJKLMNOPQRSTUVWXYZ".toList, nameChar c = true := by decide +kernel
    exact key c

theorem sorted_ext : ∀ {l m : List Str}, l.Pairwise (fun a b => strLt a b = true) → m.Pairwise (fun a b => strLt a b = true) →
    (∀ x, x ∈ l ↔ x ∈ m) → l = m
  | [], [], _, _, _ => rfl
  | [], b :: m, _, _, h => absurd ((h b).2 List.mem_cons_self) (by simp)
  | a :: l, [], _, _, h => absurd ((h a).1 List.mem_cons_self) (by simp)
  | a :: l, b :: m, hl, hm, h => by
    obtain ⟨hl1, hl2⟩ := List.pairwise_cons.1 hl
    obtain ⟨hm1, hm2⟩ := List.pairwise_cons.1 hm
    have e : a = b := by
      rcases List.mem_cons.1 ((h a).1 List.mem_cons_self) with e | h1
      · exact e
      · rcases List.mem_cons.1 ((h b).2 List.mem_cons_self) with e | h2
        · exact e.symm
        · have := strLt_asymm (hl1 b h2)
          rw [hm1 a h1] at this
          cases this
    subst e
    rw [sorted_ext hl2 hm2 fun x => ?_]
    constructor
    · intro hx
      rcases List.mem_cons.1 ((h x).1 (List.mem_cons_of_mem _ hx)) with rfl | h'
      · have := hl1 x hx
        rw [strLt_irrefl] at this
        cases this
      · exact h'
    · intro hx
      rcases List.mem_cons.1 ((h x).2 (List.mem_cons_of_mem _ hx)) with rfl | h'
      · have := hm1 x hx
        rw [strLt_irrefl] at this
        cases this
      · exact h'

theorem sortedSet_eq {l m : List Str} : sortedSet l = m ↔ (∀ x, x ∈ m ↔ x ∈ l) ∧ m.Pairwise fun a b => strLt a b = true := by
  constructor
  · rintro rfl
    exact ⟨fun x => mem_sortedSet, sortedSet_sorted l⟩
  · rintro ⟨h1, h2⟩
    exact sorted_ext (sortedSet_sorted l) h2 fun x => by rw [mem_sortedSet, h1]

theorem parseNames_iff {v : Str} {ns : List Str} : parseNames v = .ok ns ↔ NamesAre v ns := by
  unfold parseNames NamesAre
  constructor
  · intro h
    split at h
    next ha =>
      cases h
      refine ⟨_, wordsAre_iff.2 rfl, fun w hw c hc => ?_, fun n => mem_sortedSet, sortedSet_sorted _⟩
      exact nameChar_iff.1 (List.all_eq_true.1 (List.all_eq_true.1 ha w hw) c hc)
    · cases h
  · rintro ⟨ws, h1, h2, h3, h4⟩
    cases wordsAre_iff.1 h1
    rw [if_pos (List.all_eq_true.2 fun w hw => List.all_eq_true.2 fun c hc => nameChar_iff.2 (h2 w hw c hc)), sortedSet_eq.2 ⟨h3, h4⟩]

/-! ### fields -/

theorem lookup_mem' {α β : Type} [BEq α] [LawfulBEq α] {k : α} {v : β} : ∀ {l : List (α × β)}, l.lookup k = some v → (k, v) ∈ l
  | [], h => by cases h
  | (a, b) :: l, h => by
    rw [List.lookup_cons] at h
    split at h
    next e =>
      cases h
      rw [eq_of_beq e]
      exact List.mem_cons_self
    · exact List.mem_cons_of_mem _ (lookup_mem' h)

theorem lookup_naming {n : Str} : fieldMap.lookup n = some .naming ↔ String.ofList n ∈ namingFields := by
  have h1 : ∀ e ∈ fieldMap, e.2 = .naming → String.ofList e.1 ∈ namingFields := by decide +kernel
  have h2 : ∀ s ∈ namingFields, fieldMap.lookup s.toList = some .naming := by decide +kernel
  refine ⟨fun h => h1 _ (lookup_mem' h) rfl, fun h => ?_⟩
  have := h2 _ h
  rwa [String.toList_ofList] at this

theorem lookup_integer {n : Str} : fieldMap.lookup n = some .integer ↔ String.ofList n = "timeout" := by
  have h1 : ∀ e ∈ fieldMap, e.2 = .integer → String.ofList e.1 = "timeout" := by decide +kernel
  have h2 : fieldMap.lookup "timeout".toList = some .integer := by decide +kernel
  refine ⟨fun h => h1 _ (lookup_mem' h) rfl, fun h => ?_⟩
  rw [← h, String.toList_ofList] at h2
  exact h2

theorem lookup_text {n : Str} : (fieldMap.lookup n = some .plain ∨ fieldMap.lookup n = some .comment) ↔ String.ofList n ∈ textFields := by
  have h1 : ∀ e ∈ fieldMap, e.2 = .plain ∨ e.2 = .comment → String.ofList e.1 ∈ textFields := by decide +kernel
  have h2 : ∀ s ∈ textFields, fieldMap.lookup s.toList = some .plain ∨ fieldMap.lookup s.toList = some .comment := by decide +kernel
  refine ⟨fun h => ?_, fun h => ?_⟩
  · rcases h with h | h
    · exact h1 _ (lookup_mem' h) (.inl rfl)
    · exact h1 _ (lookup_mem' h) (.inr rfl)
  · have := h2 _ h
    rwa [String.toList_ofList] at this

theorem newField_iff {n v : Str} {k : Kind} (hk : fieldMap.lookup n = some k) {f : Field} :
    newField n k v = .ok f ↔ n = f.name ∧ ValueIs n v f.val := by
  obtain ⟨name, val⟩ := f
  unfold newField
  cases k with
  | naming =>
    have hn := lookup_naming.1 hk
    dsimp only
    constructor
    · intro h
      cases hp : parseNames v with
      | error e => rw [hp] at h; cases h
      | ok l =>
        rw [hp] at h
        cases h
        exact ⟨rfl, .naming hn (parseNames_iff.1 hp)⟩
    · rintro ⟨rfl, h⟩
      cases h with
      | naming _ h => rw [parseNames_iff.2 h]; rfl
      | integer h => rw [lookup_integer.2 h] at hk; cases hk
      | text h => rcases lookup_text.2 h with h | h <;> (rw [h] at hk; cases hk)
  | integer =>
    have hn := lookup_integer.1 hk
    dsimp only
    constructor
    · intro h
      split at h
      next hp =>
        cases h
        obtain ⟨i, hi⟩ := Option.isSome_iff_exists.1 hp
        exact ⟨rfl, .integer hn (pyInt_iff.1 hi)⟩
      · cases h
    · rintro ⟨rfl, h⟩
      cases h with
      | naming h => rw [lookup_naming.2 h] at hk; cases hk
      | integer _ h => rw [pyInt_iff.2 h]; rfl
      | text h => rcases lookup_text.2 h with h | h <;> (rw [h] at hk; cases hk)
  | plain =>
    have hn := lookup_text.1 (.inl hk)
    dsimp only
    constructor
    · intro h
      cases h
      exact ⟨rfl, .text hn⟩
    · rintro ⟨rfl, h⟩
      cases h with
      | naming h => rw [lookup_naming.2 h] at hk; cases hk
      | integer h => exact absurd (hk.symm.trans (lookup_integer.2 h)) (by simp)
      | text h => rfl
  | comment =>
    have hn := lookup_text.1 (.inr hk)
    dsimp only
    constructor
    · intro h
      cases h
      exact ⟨rfl, .text hn⟩
    · rintro ⟨rfl, h⟩
      cases h with
      | naming h => rw [lookup_naming.2 h] at hk; cases hk
      | integer h => exact absurd (hk.symm.trans (lookup_integer.2 h)) (by simp)
      | text h => rfl

theorem valueIs_known {n v : Str} {w : Val} (h : ValueIs n v w) : ∃ k, fieldMap.lookup n = some k := by
  cases h with
  | naming h => exact ⟨_, lookup_naming.2 h⟩
  | integer h => exact ⟨_, lookup_integer.2 h⟩
  | text h => rcases lookup_text.2 h with h | h <;> exact ⟨_, h⟩

theorem parseField_iff {raw v : Str} {f : Field} : parseField raw v = .ok f ↔
    ∃ n, Trim raw n ∧ n.map Char.toLower = f.name ∧ ValueIs f.name v f.val := by
  unfold parseField
  dsimp only
  constructor
  · intro h
    split at h
    · cases h
    next k hk =>
      obtain ⟨h1, h2⟩ := (newField_iff hk).1 h
      rw [h1] at h2
      exact ⟨_, trim_iff.2 rfl, h1, h2⟩
  · rintro ⟨n, h1, h2, h3⟩
    rw [trim_iff.1 h1, h2]
    obtain ⟨k, hk⟩ := valueIs_known h3
    rw [hk]
    exact (newField_iff hk).2 ⟨rfl, h3⟩

/-! ### colons -/

theorem cut_some : ∀ {s a b : Str}, cut s = some (a, b) ↔ s = a ++ ':' :: ':' :: b ∧ ¬ Colons (a ++ [':'])
  | [], a, b => by
    constructor
    · intro h; cases h
    · rintro ⟨h, _⟩
      cases a <;> cases h
  | c :: cs, a, b => by
    unfold cut
    split
    next hc =>
      obtain ⟨rfl, h2⟩ := hc
      cases cs with
      | nil => cases h2
      | cons d ds =>
        cases h2
        constructor
        · intro h
          cases h
          refine ⟨rfl, ?_⟩
          rintro ⟨x, y, h⟩
          have := congrArg List.length h
          simp at this
          omega
        · rintro ⟨h1, h2⟩
          cases a with
          | nil => cases h1; rfl
          | cons e a =>
            exfalso
            rw [List.cons_append, List.cons.injEq] at h1
            obtain ⟨rfl, h1⟩ := h1
            cases a with
            | nil => exact h2 ⟨[], [], rfl⟩
            | cons g a =>
              rw [List.cons_append, List.cons.injEq] at h1
              obtain ⟨rfl, _⟩ := h1
              exact h2 ⟨[], a ++ [':'], rfl⟩
    next hc =>
      constructor
      · intro h
        obtain ⟨x, hx, h⟩ := Option.map_eq_some_iff.1 h
        cases h
        obtain ⟨g1, g2⟩ := cut_some.1 (show cut cs = some (x.1, x.2) from hx)
        refine ⟨by rw [g1]; rfl, ?_⟩
        rintro ⟨y, z, h⟩
        cases y with
        | nil =>
          simp only [List.cons_append, List.nil_append, List.cons.injEq] at h
          obtain ⟨rfl, h⟩ := h
          apply hc
          refine ⟨rfl, ?_⟩
          rw [g1]
          clear hc g2 g1 hx
          rename_i h0
          clear h
          revert h0
          generalize x.1 = u
          intro h
          cases u with
          | nil => rfl
          | cons e es =>
            rw [List.cons_append, List.cons.injEq] at h
            rw [h.1]
            rfl
        | cons e y =>
          simp only [List.cons_append, List.cons.injEq] at h
          exact g2 ⟨y, z, h.2⟩
      · rintro ⟨h1, h2⟩
        cases a with
        | nil =>
          cases h1
          exact absurd ⟨rfl, rfl⟩ hc
        | cons e a =>
          rw [List.cons_append, List.cons.injEq] at h1
          obtain ⟨rfl, rfl⟩ := h1
          have : cut (a ++ ':' :: ':' :: b) = some (a, b) := cut_some.2 ⟨rfl, fun ⟨y, z, h⟩ => h2 ⟨c :: y, z, by rw [List.cons_append, h]; rfl⟩⟩
          rw [this]
          rfl

theorem cut_none {s : Str} : cut s = none ↔ ¬ Colons s := by
  constructor
  · intro h
    have key : ∀ s : Str, Colons s → ∃ x, cut s = some x := by
      intro s
      induction s with
      | nil => rintro ⟨a, b, h⟩; cases a <;> cases h
      | cons c cs ih =>
        rintro ⟨a, b, h⟩
        unfold cut
        split
        · exact ⟨_, rfl⟩
        next hc =>
          cases a with
          | nil => cases h; exact absurd ⟨rfl, rfl⟩ hc
          | cons e a =>
            cases h
            obtain ⟨x, hx⟩ := ih ⟨a, b, rfl⟩
            exact ⟨_, by rw [hx]; rfl⟩
    intro hs
    obtain ⟨x, hx⟩ := key s hs
    rw [h] at hx
    cases hx
  · intro h
    cases hc : cut s with
    | none => rfl
    | some x =>
      obtain ⟨g, _⟩ := cut_some.1 (show cut s = some (x.1, x.2) from hc)
      exact absurd ⟨_, _, g⟩ h

/-! ### inside of blocks -/

theorem prefix_one {c : Char} {l : Str} : [c].isPrefixOf l = true ↔ l.head? = some c := by
  cases l with
  | nil => simp
  | cons d ds =>
    rw [List.isPrefixOf_cons_cons, List.isPrefixOf_nil_left, Bool.and_true, beq_iff_eq, List.head?_cons, Option.some.injEq]
    exact eq_comm

theorem ignored_iff {l : Str} : (l.isEmpty || "#".toList.isPrefixOf l) = true ↔ Ignored l := by
  rw [show "#".toList = ['#'] from rfl, Bool.or_eq_true, prefix_one, List.isEmpty_iff]
  rfl

theorem append_iff {f f' : Field} {l : Str} : append f l = .ok f' ↔ Extends l f f' := by
  obtain ⟨name, val⟩ := f
  unfold append
  cases val with
  | text s =>
    dsimp only
    constructor
    · intro h; cases h; exact .text
    · intro h; cases h; rfl
  | names ns =>
    dsimp only
    have hb : ∀ {m}, NamesAre ('\n' :: l) m ↔ NamesAre l m := by
      intro m
      have e : words ('\n' :: l) = words l := wordsAux_blank (a := ['\n']) (fun c hc => by cases List.mem_singleton.1 hc; decide) l
      unfold NamesAre
      simp only [wordsAre_iff, e]
    constructor
    · intro h
      cases hp : parseNames ('\n' :: l) with
      | error e => rw [hp] at h; cases h
      | ok m =>
        rw [hp] at h
        cases h
        exact .names (hb.1 (parseNames_iff.1 hp)) (fun n => by rw [mem_sortedSet, List.mem_append]) (sortedSet_sorted _)
    · intro h
      cases h with
      | @names _ _ new all h1 h2 h3 =>
        rw [parseNames_iff.2 (hb.2 h1)]
        have : sortedSet (ns ++ new) = all := sortedSet_eq.2 ⟨fun x => by rw [h2, List.mem_append], h3⟩
        show Except.ok _ = Except.ok _
        rw [this]

theorem inBlock_iff {b b' : Block} {l : Str} : inBlock b l = .ok (some b') ↔ Step b.fields l b'.fields ∧ b'.term = b.term := by
  obtain ⟨t, fs⟩ := b
  obtain ⟨t', fs'⟩ := b'
  unfold inBlock
  split
  next hi =>
    have hi := ignored_iff.1 hi
    constructor
    · intro h; cases h; exact ⟨.skip hi, rfl⟩
    · rintro ⟨h, rfl⟩
      dsimp only at h
      generalize hfs : fs' = fs'' at h
      cases h with
      | skip _ => rfl
      | field h => exact absurd hi h
      | more h => exact absurd hi h
  next hi =>
    have hi : ¬ Ignored l := fun h => hi (ignored_iff.2 h)
    cases hc : cut l with
    | some x =>
      obtain ⟨raw, v⟩ := x
      dsimp only
      obtain ⟨g1, g2⟩ := cut_some.1 hc
      constructor
      · intro h
        cases hp : parseField raw v with
        | error e => rw [hp] at h; cases h
        | ok f =>
          rw [hp] at h
          cases h
          obtain ⟨n, k1, k2, k3⟩ := parseField_iff.1 hp
          exact ⟨.field hi ⟨raw, n, v, g1, g2, k1, k2, k3⟩, rfl⟩
      · rintro ⟨h, rfl⟩
        generalize hfs : fs' = fs'' at h
        cases h with
        | skip h => exact absurd h hi
        | @field _ _ f _ h =>
          obtain ⟨raw', n, v', j1, j2, j3, j4, j5⟩ := h
          have e := cut_some.2 ⟨j1, j2⟩
          rw [hc] at e
          cases e
          rw [parseField_iff.2 ⟨n, j3, j4, j5⟩]
          rfl
        | more _ h => exact absurd ⟨_, _, g1⟩ h
    | none =>
      dsimp only
      have hcol := cut_none.1 hc
      rw [show "}".toList = ['}'] from rfl]
      split
      next hb =>
        constructor
        · intro h; cases h
        · rintro ⟨h, _⟩
          exfalso
          generalize hfs : fs' = fs'' at h
          cases h with
          | skip h => exact hi h
          | field _ h => obtain ⟨raw', n, v', j1, _⟩ := h; exact hcol ⟨_, _, j1⟩
          | more _ _ h => exact h (prefix_one.1 hb)
      next hb =>
        constructor
        · intro h
          cases hl : fs.getLast? with
          | none => rw [hl] at h; cases h
          | some f =>
            rw [hl] at h
            dsimp only at h
            cases ha : append f l with
            | error e => rw [ha] at h; cases h
            | ok f' =>
              rw [ha] at h
              cases h
              have e : fs = fs.dropLast ++ [f] := by
                obtain ⟨ys, rfl⟩ := List.getLast?_eq_some_iff.1 hl
                rw [List.dropLast_concat]
              refine ⟨?_, rfl⟩
              have := Step.more (fs := fs.dropLast) hi hcol (fun h => hb (prefix_one.2 h)) (append_iff.1 ha)
              rw [← e] at this
              exact this
        · rintro ⟨h, rfl⟩
          generalize hfs : fs' = fs'' at h
          cases h with
          | skip h => exact absurd h hi
          | field _ h => obtain ⟨raw', n, v', j1, _⟩ := h; exact absurd ⟨_, _, j1⟩ hcol
          | more _ _ _ h =>
            subst hfs
            rw [List.getLast?_concat]
            dsimp only
            rw [append_iff.2 h, List.dropLast_concat]
            rfl

theorem closes_iff {b : Block} {l : Str} : inBlock b l = .ok none ↔ Closes l := by
  unfold inBlock Closes
  split
  next hi =>
    constructor
    · intro h; cases h
    · rintro ⟨h, _⟩
      rcases ignored_iff.1 hi with rfl | h'
      · cases h
      · rw [h] at h'; cases h'
  next hi =>
    cases hc : cut l with
    | some x =>
      obtain ⟨raw, v⟩ := x
      dsimp only
      constructor
      · intro h
        cases hp : parseField raw v with
        | error e => rw [hp] at h; cases h
        | ok f => rw [hp] at h; cases h
      · rintro ⟨_, h⟩
        exact absurd ⟨_, _, (cut_some.1 hc).1⟩ h
    | none =>
      dsimp only
      rw [show "}".toList = ['}'] from rfl]
      split
      next hb => exact ⟨fun _ => ⟨prefix_one.1 hb, cut_none.1 hc⟩, fun _ => rfl⟩
      next hb =>
        constructor
        · intro h
          cases hl : b.fields.getLast? with
          | none => rw [hl] at h; cases h
          | some f =>
            rw [hl] at h
            dsimp only at h
            cases ha : append f l with
            | error e => rw [ha] at h; cases h
            | ok f' => rw [ha] at h; cases h
        · rintro ⟨h, _⟩
          exact absurd (prefix_one.2 h) hb

/-! ### outside of blocks -/

theorem prefix_iff {p l : Str} : p.isPrefixOf l = true ↔ ∃ r, l = p ++ r := by
  rw [List.isPrefixOf_iff_prefix]
  constructor
  · rintro ⟨r, h⟩; exact ⟨r, h.symm⟩
  · rintro ⟨r, h⟩; exact ⟨r, h.symm⟩

theorem before_iff {c : Char} {s t : Str} : before c s = t ↔ c ∉ t ∧ (s = t ∨ ∃ x, s = t ++ c :: x) := by
  constructor
  · rintro rfl
    by_cases h : c ∈ s
    · obtain ⟨a, b, rfl, ha⟩ := List.eq_append_cons_of_mem h
      rw [before_app ha]
      exact ⟨ha, .inr ⟨b, rfl⟩⟩
    · rw [before_none h]
      exact ⟨h, .inl rfl⟩
  · rintro ⟨h, rfl | ⟨x, rfl⟩⟩
    · exact before_none h
    · exact before_app h

theorem parseInclude_iff {l : Str} (hp : ∃ r, l = "#include ".toList ++ r) {m : Member} : parseInclude l = .ok m ↔
    ∃ ref, m = .incl ref ∧ IncludeIs l ref := by
  unfold parseInclude
  constructor
  · intro h
    split at h
    next w n rest hw =>
      cases h
      obtain ⟨h1, h2⟩ := before_iff.1 (rfl : before '#' n = before '#' n)
      exact ⟨_, rfl, hp, _, _, _, wordsAre_iff.2 hw, h1, h2⟩
    · cases h
  · rintro ⟨ref, rfl, _, w, n, rest, hw, h1, h2⟩
    rw [wordsAre_iff.1 hw]
    dsimp only
    rw [before_iff.2 ⟨h1, h2⟩]

theorem parseTerm_iff {l : Str} (hp : ∃ r, l = "term ".toList ++ r) {b : Block} : parseTerm l = .ok b ↔
    ∃ name, b = ⟨some name, []⟩ ∧ Opens l (some name) := by
  have key : ∀ name, Opens l (some name) ↔ ∃ w n rest, WordsAre l (w :: n :: rest) ∧ '{' ∉ name ∧
      ((∃ x, n = name ++ '{' :: x) ∨ (n = name ∧ ∃ x ws, rest = ('{' :: x) :: ws)) := by
    intro name
    constructor
    · rintro (⟨h, _⟩ | ⟨nm, w, n, rest, r, h1, _, h2, h3, h4⟩)
      · cases h
      · cases h1; exact ⟨w, n, rest, h2, h3, h4⟩
    · rintro ⟨w, n, rest, h2, h3, h4⟩
      obtain ⟨r, hr⟩ := hp
      exact .inr ⟨name, w, n, rest, r, rfl, hr, h2, h3, h4⟩
  simp only [key]
  unfold parseTerm
  constructor
  · intro h
    split at h
    next w n rest hw =>
      split at h
      next hc =>
        cases h
        obtain ⟨h1, h2⟩ := before_iff.1 (rfl : before '{' n = before '{' n)
        refine ⟨_, rfl, w, n, rest, wordsAre_iff.2 hw, h1, .inl ?_⟩
        rcases h2 with h2 | h2
        · rw [← h2] at h1
          exact absurd (List.contains_iff_mem.1 hc) h1
        · exact h2
      next hc =>
        split at h
        · cases h
        next r ws =>
          split at h
          next hr =>
            cases h
            refine ⟨_, rfl, w, n, _, wordsAre_iff.2 hw, fun h => hc (List.contains_iff_mem.2 h), .inr ⟨rfl, ?_⟩⟩
            cases r with
            | nil => cases hr
            | cons a r => cases hr; exact ⟨_, _, rfl⟩
          · cases h
    · cases h
  · rintro ⟨name, rfl, w, n, rest, hw, h1, h2⟩
    rw [wordsAre_iff.1 hw]
    dsimp only
    rcases h2 with ⟨x, rfl⟩ | ⟨rfl, x, ws, rfl⟩
    · rw [if_pos (List.contains_iff_mem.2 (by simp)), before_app h1]
    · rw [if_neg (fun h => h1 (List.contains_iff_mem.1 h))]
      exact if_pos rfl

theorem topLevel_member {l : Str} {m : Member} : topLevel l = .ok (.inl m) ↔
    (l = [] ∧ m = .blank) ∨ (l.head? = some '#' ∧ (∀ r, l ≠ "#include ".toList ++ r) ∧ m = .comment l) ∨
    ∃ ref, m = .incl ref ∧ IncludeIs l ref := by
  have hinc : ∀ r, ("#include ".toList ++ r).head? = some '#' := fun r => rfl
  unfold topLevel
  rw [show "#".toList = ['#'] from rfl]
  split
  next h0 =>
    have h0 := List.isEmpty_iff.1 h0
    subst h0
    constructor
    · intro h; cases h; exact .inl ⟨rfl, rfl⟩
    · rintro (⟨_, rfl⟩ | ⟨h, _⟩ | ⟨ref, _, ⟨r, h⟩, _⟩)
      · rfl
      · cases h
      · cases h
  next h0 =>
    have h0 : l ≠ [] := fun h => h0 (List.isEmpty_iff.2 h)
    split
    next h1 =>
      have h1 := prefix_one.1 h1
      split
      next h2 =>
        have h2 := prefix_iff.1 h2
        constructor
        · intro h
          cases hp : parseInclude l with
          | error e => rw [hp] at h; cases h
          | ok x =>
            rw [hp] at h
            cases h
            exact .inr (.inr ((parseInclude_iff h2).1 hp))
        · rintro (⟨h, _⟩ | ⟨_, h, _⟩ | h)
          · exact absurd h h0
          · obtain ⟨r, hr⟩ := h2
            exact absurd hr (h r)
          · rw [(parseInclude_iff h2).2 h]
            rfl
      next h2 =>
        have h2 : ∀ r, l ≠ "#include ".toList ++ r := fun r h => h2 (prefix_iff.2 ⟨r, h⟩)
        constructor
        · intro h; cases h; exact .inr (.inl ⟨h1, h2, rfl⟩)
        · rintro (⟨h, _⟩ | ⟨_, _, rfl⟩ | ⟨ref, _, ⟨r, h⟩, _⟩)
          · exact absurd h h0
          · rfl
          · exact absurd h (h2 r)
    next h1 =>
      have h1 : l.head? ≠ some '#' := fun h => h1 (prefix_one.2 h)
      constructor
      · intro h
        split at h
        · cases h
        · split at h
          · cases hp : parseTerm l with
            | error e => rw [hp] at h; cases h
            | ok x => rw [hp] at h; cases h
          · cases h
      · rintro (⟨h, _⟩ | ⟨h, _⟩ | ⟨ref, _, ⟨r, h⟩, _⟩)
        · exact absurd h h0
        · exact absurd h h1
        · rw [h] at h1; exact absurd (hinc r) h1

theorem topLevel_block {l : Str} {b : Block} : topLevel l = .ok (.inr b) ↔ ∃ t, b = ⟨t, []⟩ ∧ Opens l t := by
  have hh : ∀ r, ("header {".toList ++ r).head? = some 'h' := fun r => rfl
  have hh' : ∀ r, ("header{".toList ++ r).head? = some 'h' := fun r => rfl
  have ht : ∀ r, ("term ".toList ++ r).head? = some 't' := fun r => rfl
  have hop : ∀ t, Opens l t → l.head? = some 'h' ∨ l.head? = some 't' := by
    rintro t (⟨_, r, rfl | rfl⟩ | ⟨_, _, _, _, r, _, rfl, _⟩)
    · exact .inl (hh r)
    · exact .inl (hh' r)
    · exact .inr (ht r)
  unfold topLevel
  rw [show "#".toList = ['#'] from rfl]
  split
  next h0 =>
    have h0 := List.isEmpty_iff.1 h0
    subst h0
    constructor
    · intro h; cases h
    · rintro ⟨t, _, h⟩
      rcases hop t h with h | h <;> cases h
  next h0 =>
    split
    next h1 =>
      have h1 := prefix_one.1 h1
      constructor
      · intro h
        split at h
        · cases hp : parseInclude l with
          | error e => rw [hp] at h; cases h
          | ok x => rw [hp] at h; cases h
        · cases h
      · rintro ⟨t, _, h⟩
        rcases hop t h with h | h <;> (rw [h1] at h; cases h)
    next h1 =>
      split
      next h2 =>
        have h2 : ∃ r, l = "header {".toList ++ r ∨ l = "header{".toList ++ r := by
          rw [Bool.or_eq_true, prefix_iff, prefix_iff] at h2
          rcases h2 with ⟨r, h⟩ | ⟨r, h⟩
          · exact ⟨r, .inl h⟩
          · exact ⟨r, .inr h⟩
        constructor
        · intro h; cases h; exact ⟨none, rfl, .inl ⟨rfl, h2⟩⟩
        · rintro ⟨t, rfl, h⟩
          rcases h with ⟨rfl, _⟩ | ⟨_, _, _, _, r, _, rfl, _⟩
          · rfl
          · obtain ⟨r', h | h⟩ := h2
            · have := ht r; rw [h, hh] at this; cases this
            · have := ht r; rw [h, hh'] at this; cases this
      next h2 =>
        have h2 : ¬ ∃ r, l = "header {".toList ++ r ∨ l = "header{".toList ++ r := by
          rintro ⟨r, h⟩
          apply h2
          rw [Bool.or_eq_true, prefix_iff, prefix_iff]
          rcases h with h | h
          · exact .inl ⟨r, h⟩
          · exact .inr ⟨r, h⟩
        split
        next h3 =>
          have h3 := prefix_iff.1 h3
          constructor
          · intro h
            cases hp : parseTerm l with
            | error e => rw [hp] at h; cases h
            | ok x =>
              rw [hp] at h
              cases h
              obtain ⟨name, h4, h5⟩ := (parseTerm_iff h3).1 hp
              exact ⟨_, h4, h5⟩
          · rintro ⟨t, rfl, h⟩
            cases t with
            | none =>
              rcases h with ⟨_, h⟩ | ⟨_, _, _, _, _, h, _⟩
              · exact absurd h h2
              · cases h
            | some name =>
              rw [(parseTerm_iff h3).2 ⟨name, rfl, h⟩]
              rfl
        next h3 =>
          constructor
          · intro h; cases h
          · rintro ⟨t, _, h⟩
            rcases h with ⟨_, h⟩ | ⟨_, _, _, _, r, _, h, _⟩
            · exact absurd h h2
            · exact absurd (prefix_iff.2 ⟨r, h⟩) h3

/-! ### whole policies -/

theorem parseLines_iff (ls : List Str) : (∀ ms, parseLines none ls = .ok ms ↔ Reads ls ms) ∧
    ∀ b ms, parseLines (some b) ls = .ok ms ↔ ∃ body c rest fs ms', ls = body ++ c :: rest ∧ Body b.fields body fs ∧ Closes c ∧
      Reads rest ms' ∧ ms = .block ⟨b.term, fs⟩ :: ms' := by
  induction ls with
  | nil =>
    refine ⟨fun ms => ?_, fun b ms => ?_⟩
    · constructor
      · intro h; cases h; exact .nil
      · intro h; cases h; rfl
    · constructor
      · intro h; cases h
      · rintro ⟨body, c, rest, fs, ms', h, _⟩
        cases body <;> cases h
  | cons l ls ih =>
    obtain ⟨ih1, ih2⟩ := ih
    refine ⟨fun ms => ?_, fun b ms => ?_⟩
    · constructor
      · intro h
        unfold parseLines at h
        cases ht : topLevel l with
        | error e => rw [ht] at h; cases h
        | ok x =>
          rw [ht] at h
          cases x with
          | inl m =>
            change (parseLines none ls).bind (fun ms => .ok (m :: ms)) = _ at h
            cases hp : parseLines none ls with
            | error e => rw [hp] at h; cases h
            | ok ms' =>
              rw [hp] at h
              cases h
              have hr := (ih1 _).1 hp
              rcases topLevel_member.1 ht with ⟨rfl, rfl⟩ | ⟨h1, h2, rfl⟩ | ⟨ref, rfl, h1⟩
              · exact .blank hr
              · exact .comment h1 h2 hr
              · exact .incl h1 hr
          | inr b =>
            change parseLines (some b) ls = _ at h
            obtain ⟨body, c, rest, fs, ms', rfl, h1, h2, h3, rfl⟩ := (ih2 _ _).1 h
            obtain ⟨t, rfl, h4⟩ := topLevel_block.1 ht
            exact .block h4 h1 h2 h3
      · intro h
        have step : ∀ {m ms'}, topLevel l = .ok (.inl m) → Reads ls ms' → parseLines none (l :: ls) = .ok (m :: ms') := by
          intro m ms' h1 h2
          unfold parseLines
          rw [h1]
          show (parseLines none ls).bind (fun ms => .ok (m :: ms)) = _
          rw [(ih1 _).2 h2]
          rfl
        generalize hl : l :: ls = ll at h
        cases h with
        | nil => cases hl
        | blank h => cases hl; exact step (topLevel_member.2 (.inl ⟨rfl, rfl⟩)) h
        | comment h1 h2 h => cases hl; exact step (topLevel_member.2 (.inr (.inl ⟨h1, h2, rfl⟩))) h
        | incl h1 h => cases hl; exact step (topLevel_member.2 (.inr (.inr ⟨_, rfl, h1⟩))) h
        | block h1 h2 h3 h4 =>
          cases hl
          unfold parseLines
          rw [topLevel_block.2 ⟨_, rfl, h1⟩]
          exact (ih2 _ _).2 ⟨_, _, _, _, _, rfl, h2, h3, h4, rfl⟩
    · constructor
      · intro h
        unfold parseLines at h
        cases ht : inBlock b l with
        | error e => rw [ht] at h; cases h
        | ok x =>
          rw [ht] at h
          cases x with
          | some b' =>
            change parseLines (some b') ls = _ at h
            obtain ⟨body, c, rest, fs, ms', rfl, h1, h2, h3, rfl⟩ := (ih2 _ _).1 h
            obtain ⟨h4, h5⟩ := inBlock_iff.1 ht
            exact ⟨l :: body, c, rest, fs, ms', rfl, .cons h4 h1, h2, h3, by rw [h5]⟩
          | none =>
            change (parseLines none ls).bind (fun ms => .ok (.block b :: ms)) = _ at h
            cases hp : parseLines none ls with
            | error e => rw [hp] at h; cases h
            | ok ms' =>
              rw [hp] at h
              cases h
              exact ⟨[], l, ls, b.fields, ms', rfl, .nil, closes_iff.1 ht, (ih1 _).1 hp, rfl⟩
      · rintro ⟨body, c, rest, fs, ms', h, h1, h2, h3, rfl⟩
        unfold parseLines
        cases h1 with
        | nil =>
          cases h
          rw [closes_iff.2 h2]
          show (parseLines none ls).bind (fun ms => .ok (.block b :: ms)) = _
          rw [(ih1 _).2 h3]
          rfl
        | cons h4 h5 =>
          cases h
          rw [(inBlock_iff (b' := ⟨b.term, _⟩)).2 ⟨h4, rfl⟩]
          exact (ih2 _ _).2 ⟨_, _, _, _, _, rfl, h5, h2, h3, rfl⟩

end SimpleL
end Verif
