import Verif.Lemmas.Simple

/-! Lemmas about what the line-oriented policy parser makes of printed policies. -/

namespace Verif
namespace SimpleL
open Spec Spec.Simple PyStr Verif.Simple Port
open Aclgenerator (joinBlank)

/-! ### what is read -/

/-- A line without white space around it. -/
structure Clean (l : Str) : Prop where
  one : '\n' ∉ l
  head : ∀ c, l.head? = some c → isSpace c = false
  last : ∀ c, l.getLast? = some c → isSpace c = false

theorem clean_strip {l : Str} (h : Clean l) : strip l = l := by
  have := strip_around (a := []) (b := []) (by intro c hc; cases hc) (by intro c hc; cases hc) h.head h.last
  rwa [List.append_nil, List.nil_append] at this

theorem linesAre_clean {text : Str} {ls : List Str} (h : LinesAre text ls) : ∀ l ∈ ls, Clean l := by
  have key : ∀ {raw l : Str}, '\n' ∉ raw → Trim raw l → Clean l := by
    rintro raw l h1 ⟨a, b, rfl, _, _, h2, h3⟩
    exact ⟨fun h => h1 (by simp [h]), h2, h3⟩
  induction h with
  | last h1 h2 =>
    intro l hl
    cases List.mem_singleton.1 hl
    exact key h1 h2
  | more h1 h2 _ ih =>
    intro l hl
    rcases List.mem_cons.1 hl with rfl | hl
    · exact key h1 h2
    · exact ih l hl

/-- A line that continues a field. -/
structure Cont (l : Str) : Prop where
  clean : Clean l
  live : ¬ Ignored l
  colons : ¬ Colons l
  brace : l.head? ≠ some '}'

/-- A field that can be read. -/
inductive GoodField : Field → Prop
  | text {name v : Str} {ls : List Str} : ValueIs name v (.text v) → '\n' ∉ v → (∀ c, v.getLast? = some c → isSpace c = false) →
      (∀ l ∈ ls, Cont l) → GoodField ⟨name, .text (v ++ ls.flatMap fun l => '\n' :: l)⟩
  | names {name : Str} {ns : List Str} : String.ofList name ∈ namingFields → (∀ n ∈ ns, n ≠ [] ∧ NameOk n) →
      ns.Pairwise (fun a b => strLt a b = true) → GoodField ⟨name, .names ns⟩

theorem wordsAre_ne {s : Str} {ws : List Str} (h : WordsAre s ws) : ∀ w ∈ ws, w ≠ [] ∧ ∀ c ∈ w, isSpace c = false := by
  induction h with
  | nil => intro w hw; cases hw
  | cons _ h1 h2 _ _ ih =>
    intro w hw
    rcases List.mem_cons.1 hw with rfl | hw
    · exact ⟨h1, h2⟩
    · exact ih w hw

theorem namesAre_ok {s : Str} {ns : List Str} (h : NamesAre s ns) : ∀ n ∈ ns, n ≠ [] ∧ NameOk n := by
  obtain ⟨ws, h1, h2, h3, _⟩ := h
  intro n hn
  exact ⟨(wordsAre_ne h1 n ((h3 n).1 hn)).1, h2 n ((h3 n).1 hn)⟩

theorem fieldIs_good {l : Str} (hl : Clean l) {f : Field} (h : FieldIs l f) : GoodField f := by
  obtain ⟨name, val⟩ := f
  obtain ⟨raw, n, v, rfl, _, _, _, h5⟩ := h
  have h1 : '\n' ∉ v := fun h => hl.one (by simp [h])
  have h2 : ∀ c, v.getLast? = some c → isSpace c = false := by
    intro c hc
    apply hl.last c
    obtain ⟨ys, rfl⟩ := List.getLast?_eq_some_iff.1 hc
    apply List.getLast?_eq_some_iff.2
    exact ⟨raw ++ ':' :: ':' :: ys, by simp⟩
  dsimp only at h5
  have e : v = v ++ ([] : List Str).flatMap fun l => '\n' :: l := by simp
  cases h5 with
  | naming g1 g2 => exact .names g1 (namesAre_ok g2) (by obtain ⟨_, _, _, _, h⟩ := g2; exact h)
  | integer g1 g2 =>
    rw [e]
    exact .text (.integer g1 g2) h1 h2 (by simp)
  | text g1 =>
    rw [e]
    exact .text (.text g1) h1 h2 (by simp)

theorem step_good {fs fs' : List Field} {l : Str} (hl : Clean l) (h : Step fs l fs') (hg : ∀ f ∈ fs, GoodField f) :
    ∀ f ∈ fs', GoodField f := by
  cases h with
  | skip _ => exact hg
  | field _ h =>
    intro f hf
    rcases List.mem_append.1 hf with hf | hf
    · exact hg f hf
    · cases List.mem_singleton.1 hf
      exact fieldIs_good hl h
  | @more gs _ g g' h1 h2 h3 h4 =>
    intro f hf
    rcases List.mem_append.1 hf with hf | hf
    · exact hg f (List.mem_append_left _ hf)
    · cases List.mem_singleton.1 hf
      have hgg := hg g (by simp)
      cases h4 with
      | text =>
        generalize hs : Field.mk _ _ = g0 at hgg
        cases hgg with
        | text k1 k2 k3 k4 =>
          cases hs
          rw [List.append_assoc, show ∀ (x : List Str), (x.flatMap fun l => '\n' :: l) ++ '\n' :: l =
            (x ++ [l]).flatMap fun l => '\n' :: l from fun x => by simp]
          refine .text k1 k2 k3 fun l' hl' => ?_
          rcases List.mem_append.1 hl' with h | h
          · exact k4 _ h
          · cases List.mem_singleton.1 h
            exact ⟨hl, h1, h2, h3⟩
        | names => cases hs
      | names j1 j2 j3 =>
        generalize hs : Field.mk _ _ = g0 at hgg
        cases hgg with
        | text => cases hs
        | names k1 k2 k3 =>
          cases hs
          refine .names k1 (fun n hn => ?_) j3
          rcases (j2 n).1 hn with h | h
          · exact k2 n h
          · exact namesAre_ok j1 n h

theorem body_good {fs fs' : List Field} {ls : List Str} (h : Body fs ls fs') (hl : ∀ l ∈ ls, Clean l) (hg : ∀ f ∈ fs, GoodField f) :
    ∀ f ∈ fs', GoodField f := by
  induction h with
  | nil => exact hg
  | cons h1 _ ih => exact ih (fun l h => hl l (List.mem_cons_of_mem _ h)) (step_good (hl _ List.mem_cons_self) h1 hg)

/-- A member that can be read. -/
inductive GoodMember : Member → Prop
  | blank : GoodMember .blank
  | comment {l : Str} : Clean l → l.head? = some '#' → (∀ r, l ≠ "#include ".toList ++ r) → GoodMember (.comment l)
  | incl {r : Str} : GoodMember (.incl r)
  | block {t : Option Str} {fs : List Field} : (∀ n, t = some n → '{' ∉ n ∧ ∀ c ∈ n, isSpace c = false) → (∀ f ∈ fs, GoodField f) →
      GoodMember (.block ⟨t, fs⟩)

theorem reads_good {ls : List Str} {ms : List Member} (h : Reads ls ms) (hl : ∀ l ∈ ls, Clean l) : ∀ m ∈ ms, GoodMember m := by
  induction h with
  | nil => intro m hm; cases hm
  | blank _ ih =>
    intro m hm
    rcases List.mem_cons.1 hm with rfl | hm
    · exact .blank
    · exact ih (fun l h => hl l (List.mem_cons_of_mem _ h)) m hm
  | comment h1 h2 _ ih =>
    intro m hm
    rcases List.mem_cons.1 hm with rfl | hm
    · exact .comment (hl _ List.mem_cons_self) h1 h2
    · exact ih (fun l h => hl l (List.mem_cons_of_mem _ h)) m hm
  | incl h1 _ ih =>
    intro m hm
    rcases List.mem_cons.1 hm with rfl | hm
    · exact .incl
    · exact ih (fun l h => hl l (List.mem_cons_of_mem _ h)) m hm
  | block h1 h2 h3 _ ih =>
    intro m hm
    rcases List.mem_cons.1 hm with rfl | hm
    · refine .block (fun n hn => ?_) (body_good h2 (fun l h => hl l (by simp [h])) (by simp))
      subst hn
      rcases h1 with ⟨h, _⟩ | ⟨nm, w, n', rest, r, e, _, hw, g1, g2⟩
      · cases h
      · cases e
        have := (wordsAre_ne hw n' (by simp)).2
        refine ⟨g1, fun c hc => ?_⟩
        rcases g2 with ⟨x, rfl⟩ | ⟨rfl, _⟩
        · exact this c (by simp [hc])
        · exact this c hc
    · exact ih (fun l h => hl l (by simp [h])) m hm

/-! ### lines of printed texts -/

theorem splitOn_lines {c : Char} : ∀ {ls : List Str}, (∀ l ∈ ls, c ∉ l) → splitOn c (ls.flatMap fun l => l ++ [c]) = ls ++ [[]]
  | [], _ => rfl
  | l :: ls, h => by
    rw [List.flatMap_cons, List.append_assoc, List.singleton_append, splitOn_app (h l List.mem_cons_self),
      splitOn_lines fun x hx => h x (List.mem_cons_of_mem _ hx)]
    rfl

theorem splitOn_join' {c : Char} : ∀ {v : Str} {ls : List Str}, c ∉ v → (∀ l ∈ ls, c ∉ l) →
    splitOn c (v ++ ls.flatMap fun l => c :: l) = v :: ls
  | v, [], hv, _ => by rw [List.flatMap_nil, List.append_nil, splitOn_none hv]
  | v, l :: ls, hv, h => by
    rw [List.flatMap_cons, List.cons_append, splitOn_app hv,
      splitOn_join' (h l List.mem_cons_self) fun x hx => h x (List.mem_cons_of_mem _ hx)]

theorem splitOn_parts (c : Char) : ∀ s : Str, ∃ v ls, splitOn c s = v :: ls ∧ s = v ++ (ls.flatMap fun l => c :: l) ∧ c ∉ v ∧ ∀ l ∈ ls, c ∉ l := by
  have key : ∀ (n : Nat) (s : Str), s.length ≤ n → ∃ v ls, splitOn c s = v :: ls ∧ s = v ++ (ls.flatMap fun l => c :: l) ∧ c ∉ v ∧ ∀ l ∈ ls, c ∉ l := by
    intro n
    induction n with
    | zero =>
      intro s h
      cases List.length_eq_zero_iff.1 (Nat.le_zero.1 h)
      exact ⟨[], [], rfl, rfl, by simp, by simp⟩
    | succ n ih =>
      intro s h
      by_cases hn : c ∈ s
      · obtain ⟨a, b, rfl, ha⟩ := List.eq_append_cons_of_mem hn
        obtain ⟨v, ls, h1, h2, h3, h4⟩ := ih b (by simp at h; omega)
        refine ⟨a, v :: ls, by rw [splitOn_app ha, h1], by rw [List.flatMap_cons, List.cons_append, ← h2], ha, fun l hl => ?_⟩
        rcases List.mem_cons.1 hl with rfl | hl
        · exact h3
        · exact h4 l hl
      · exact ⟨s, [], splitOn_none hn, by simp, hn, by simp⟩
  exact fun s => key _ s (Nat.le_refl _)

theorem indent_none {n : Nat} : ∀ {s : Str}, '\n' ∉ s → indent n s = s
  | [], _ => rfl
  | c :: cs, h => by
    have hc : c ≠ '\n' := fun e => h (e ▸ List.mem_cons_self)
    unfold indent
    rw [List.flatMap_cons, if_neg hc]
    exact congrArg (c :: ·) (indent_none fun e => h (List.mem_cons_of_mem _ e))

theorem indent_append {n : Nat} {s t : Str} : indent n (s ++ t) = indent n s ++ indent n t := by
  unfold indent
  rw [List.flatMap_append]

theorem indent_lines {n : Nat} {v : Str} : ∀ {ls : List Str}, '\n' ∉ v → (∀ l ∈ ls, '\n' ∉ l) →
    indent n (v ++ ls.flatMap fun l => '\n' :: l) = v ++ (ls.map fun l => List.replicate n ' ' ++ l).flatMap fun l => '\n' :: l := by
  intro ls hv h
  rw [indent_append, indent_none hv]
  congr 1
  induction ls with
  | nil => rfl
  | cons l ls ih =>
    rw [List.flatMap_cons, indent_append, ih fun x hx => h x (List.mem_cons_of_mem _ hx), List.map_cons, List.flatMap_cons]
    congr 1
    unfold indent
    rw [List.flatMap_cons, if_pos rfl, List.cons_append]
    have := indent_none (n := n) (h l List.mem_cons_self)
    unfold indent at this
    rw [this]

/-- The lines of a printed field. -/
def fieldLines (f : Field) : List Str :=
  match splitOn '\n' (valueStr f) with
  | [] => []
  | v :: ls => ("  ".toList ++ f.name ++ "::".toList ++ v) :: ls.map fun l => List.replicate (f.name.length + 5) ' ' ++ l

theorem lines_end {v : Str} : ∀ {ls : List Str}, v ++ (ls.flatMap fun l => '\n' :: l) ++ ['\n'] = (v :: ls).flatMap fun l => l ++ ['\n']
  | [] => by simp
  | l :: ls => by
    have := lines_end (v := l) (ls := ls)
    rw [List.flatMap_cons, List.flatMap_cons (xs := l :: ls), ← this]
    simp

theorem field_lines (f : Field) : "  ".toList ++ fieldStr f ++ ['\n'] = (fieldLines f).flatMap fun l => l ++ ['\n'] := by
  obtain ⟨v, ls, h1, h2, h3, h4⟩ := splitOn_parts '\n' (valueStr f)
  unfold fieldLines fieldStr
  rw [h1]
  dsimp only
  rw [← lines_end, h2, indent_lines h3 h4]
  simp only [List.append_assoc]

theorem name_clean {f : Field} (h : GoodField f) : '\n' ∉ f.name ∧ ':' ∉ f.name ∧ strip f.name = f.name ∧ f.name.map Char.toLower = f.name ∧
    (∃ c, f.name.head? = some c ∧ isSpace c = false ∧ c ≠ '#') := by
  have key : ∀ e ∈ fieldMap, '\n' ∉ e.1 ∧ ':' ∉ e.1 ∧ strip e.1 = e.1 ∧ e.1.map Char.toLower = e.1 ∧
      isSpace (e.1.headD ' ') = false ∧ e.1.headD ' ' ≠ '#' := by decide +kernel
  have hk : ∃ k, fieldMap.lookup f.name = some k := by
    cases h with
    | text h => exact valueIs_known h
    | names h => exact ⟨_, lookup_naming.2 h⟩
  obtain ⟨k, hk⟩ := hk
  obtain ⟨h1, h2, h3, h4, h5, h6⟩ := key _ (lookup_mem' hk)
  refine ⟨h1, h2, h3, h4, ?_⟩
  dsimp only at h5 h6
  cases hn : f.name with
  | nil => rw [hn] at h5; cases h5
  | cons c cs =>
    rw [hn] at h5 h6
    exact ⟨c, rfl, h5, h6⟩

theorem fieldLines_one {f : Field} (h : GoodField f) : ∀ l ∈ fieldLines f, '\n' ∉ l := by
  obtain ⟨v, ls, h1, h2, h3, h4⟩ := splitOn_parts '\n' (valueStr f)
  unfold fieldLines
  rw [h1]
  dsimp only
  intro l hl
  rcases List.mem_cons.1 hl with rfl | hl
  · intro hc
    simp only [List.mem_append] at hc
    rcases hc with ((hc | hc) | hc) | hc
    · exact absurd hc (by decide)
    · exact (name_clean h).1 hc
    · exact absurd hc (by decide)
    · exact h3 hc
  · obtain ⟨x, hx, rfl⟩ := List.mem_map.1 hl
    intro hc
    rcases List.mem_append.1 hc with hc | hc
    · have := (List.mem_replicate.1 hc).2
      exact absurd this (by decide)
    · exact h4 x hx hc

/-! ### names that are printed -/

/-- The names on each line. -/
def chunks : List Str → Nat → List Str → List (List Str)
  | [], _, line => if line.isEmpty then [] else [line]
  | v :: vs, n, line =>
    if n + v.length > 60 then line :: chunks vs 0 []
    else chunks vs ((if line.isEmpty then n else n + 1) + v.length) (line ++ [v])

theorem wrap_chunks : ∀ {vs : List Str} {n : Nat} {line buf : List Str}, wrap vs n line buf = buf ++ (chunks vs n line).map joinBlank
  | [], n, line, buf => by
    unfold wrap chunks
    split <;> simp
  | v :: vs, n, line, buf => by
    unfold wrap chunks
    split
    · rw [wrap_chunks, List.map_cons, List.append_assoc, List.singleton_append]
    · rw [wrap_chunks]

theorem chunks_sub : ∀ {vs : List Str} {n : Nat} {line : List Str}, (chunks vs n line).flatten.Sublist (line ++ vs)
  | [], n, line => by
    unfold chunks
    split
    next h => rw [List.isEmpty_iff.1 h]; exact List.Sublist.refl _
    · simp
  | v :: vs, n, line => by
    unfold chunks
    split
    · rw [List.flatten_cons]
      exact List.Sublist.append (List.Sublist.refl _) (List.Sublist.cons _ chunks_sub)
    · have := chunks_sub (vs := vs) (n := (if line.isEmpty then n else n + 1) + v.length) (line := line ++ [v])
      rwa [List.append_assoc, List.singleton_append] at this

/-- The names that are not lost. -/
def keep (ns : List Str) : List Str := (chunks ns 0 []).flatten

theorem keep_sub (ns : List Str) : (keep ns).Sublist ns := chunks_sub

/-- The field that is read again. -/
def keepField (f : Field) : Field :=
  match f.val with
  | .names l => ⟨f.name, .names (keep l)⟩
  | .text _ => f

theorem width_append : ∀ {l : List Str} {v : Str}, l ≠ [] → width (l ++ [v]) = width l + 1 + v.length
  | [], _, h => absurd rfl h
  | [a], v, _ => by simp [width]
  | a :: b :: l, v, _ => by
    have := width_append (l := b :: l) (v := v) (by simp)
    simp only [List.cons_append, width] at this ⊢
    omega

theorem width_prefix : ∀ {l m : List Str}, width l ≤ width (l ++ m)
  | [], _ => Nat.zero_le _
  | [a], [] => Nat.le_refl _
  | [a], b :: m => by simp only [List.cons_append, List.nil_append, width]; omega
  | a :: b :: l, m => by
    have := width_prefix (l := b :: l) (m := m)
    simp only [List.cons_append, width] at this ⊢
    omega

theorem chunks_all : ∀ {vs line : List Str}, (∀ v ∈ line ++ vs, v ≠ []) →
    ((chunks vs (width line) line).flatten = line ++ vs ↔ (vs = [] ∨ Fits (line ++ vs)))
  | [], line, _ => by
    refine iff_of_true ?_ (.inl rfl)
    unfold chunks
    split
    next h => rw [List.isEmpty_iff.1 h]; rfl
    · simp
  | v :: vs, line, hne => by
    have hv : v ≠ [] := hne v (by simp)
    have hv' : 0 < v.length := List.length_pos_iff.2 hv
    unfold chunks
    have hw : (if line.isEmpty then width line else width line + 1) + v.length = width (line ++ [v]) := by
      cases line with
      | nil => simp [width]
      | cons a l => rw [width_append (by simp)]; rfl
    split
    next hb =>
      constructor
      · intro h
        have h1 := chunks_sub (vs := vs) (n := 0) (line := [])
        have h2 := h1.length_le
        have h3 := congrArg List.length h
        simp only [List.flatten_cons, List.length_append, List.length_cons, List.nil_append] at h3 h2
        omega
      · rintro (h | h)
        · cases h
        · exfalso
          unfold Fits at h
          have h1 : width (line ++ [v]) ≤ width (line ++ v :: vs) := by
            have := width_prefix (l := line ++ [v]) (m := vs)
            rwa [List.append_assoc, List.singleton_append] at this
          cases line with
          | nil =>
            cases vs with
            | nil => simp [width] at h hb; omega
            | cons w vs =>
              have hw' : 0 < w.length := List.length_pos_iff.2 (hne w (by simp))
              have h2 : width [v, w] ≤ width (v :: w :: vs) := width_prefix (l := [v, w]) (m := vs)
              simp [width] at h hb h2 ⊢
              have h3 : width [v, w] = v.length + 1 + w.length := rfl
              omega
          | cons a l =>
            rw [width_append (by simp)] at h1
            rw [if_neg (by simp)] at h
            omega
    next hb =>
      rw [hw]
      have hne' : ∀ x ∈ (line ++ [v]) ++ vs, x ≠ [] := by
        rw [List.append_assoc, List.singleton_append]
        exact hne
      have := chunks_all (vs := vs) (line := line ++ [v]) hne'
      rw [List.append_assoc, List.singleton_append] at this
      rw [this]
      constructor
      · rintro (rfl | h)
        · right
          unfold Fits
          cases line with
          | nil => simp [width] at hb ⊢; omega
          | cons a l =>
            rw [width_append (by simp), if_neg (by simp)]
            omega
        · exact .inr h
      · rintro (h | h)
        · cases h
        · exact .inr h

theorem keep_iff {ns : List Str} (h : ∀ n ∈ ns, n ≠ []) : keep ns = ns ↔ Fits ns := by
  have := chunks_all (vs := ns) (line := []) h
  unfold keep
  rw [List.nil_append] at this
  exact this.trans ⟨fun h => by
    rcases h with rfl | h
    · simp [Fits, width]
    · exact h, .inr⟩

/-! ### names of a line -/

theorem wordsAre_blank : ∀ {ns : List Str}, (∀ n ∈ ns, n ≠ [] ∧ ∀ c ∈ n, isSpace c = false) → WordsAre (joinBlank ns) ns
  | [], _ => .nil (fun c hc => by cases hc)
  | [a], h => by
    have := WordsAre.cons (sp := []) (rest := []) (ws := []) (fun c hc => by cases hc) (h a (by simp)).1 (h a (by simp)).2 (.inl rfl)
      (.nil (fun c hc => by cases hc))
    rwa [List.append_nil, List.nil_append] at this
  | a :: b :: l, h => by
    have ih := wordsAre_blank (ns := b :: l) fun n hn => h n (List.mem_cons_of_mem _ hn)
    have ih' : WordsAre (' ' :: joinBlank (b :: l)) (b :: l) := by
      rw [wordsAre_iff] at ih ⊢
      obtain ⟨sp, rest, h1, h2, h3⟩ := words_cons.1 ih
      refine words_cons.2 ⟨' ' :: sp, rest, by rw [h1]; rfl, fun c hc => ?_, h3⟩
      rcases List.mem_cons.1 hc with rfl | hc
      · decide
      · exact h2 c hc
    exact .cons (sp := []) (fun c hc => by cases hc) (h a (by simp)).1 (h a (by simp)).2 (.inr ⟨' ', _, rfl, by decide⟩) ih'

theorem name_space {n : Str} (h : NameOk n) : ∀ c ∈ n, isSpace c = false := by
  have key : ∀ c ∈ "-_.0123456789ABCDEFGHIJKLMNOPQRSTUVWXYZ".toList, isSpace c = false := by decide +kernel
  exact fun c hc => key c (h c hc)

theorem joinBlank_mem {c : Char} : ∀ {ns : List Str}, c ∈ joinBlank ns → c = ' ' ∨ ∃ n ∈ ns, c ∈ n
  | [], h => by cases h
  | [a], h => .inr ⟨a, by simp, h⟩
  | a :: b :: l, h => by
    rcases List.mem_append.1 h with h | h
    · exact .inr ⟨a, by simp, h⟩
    · rcases List.mem_cons.1 h with h | h
      · exact .inl h
      · rcases joinBlank_mem h with h | ⟨n, h1, h2⟩
        · exact .inl h
        · exact .inr ⟨n, List.mem_cons_of_mem _ h1, h2⟩

theorem joinBlank_head : ∀ {ns : List Str}, (∀ n ∈ ns, n ≠ []) → ns ≠ [] → ∃ c, (joinBlank ns).head? = some c ∧ ∃ n ∈ ns, c ∈ n
  | [], _, h => absurd rfl h
  | [a], h, _ => by
    cases a with
    | nil => exact absurd rfl (h [] (by simp))
    | cons c cs => exact ⟨c, rfl, c :: cs, by simp, List.mem_cons_self⟩
  | a :: b :: l, h, _ => by
    cases a with
    | nil => exact absurd rfl (h [] (by simp))
    | cons c cs => exact ⟨c, rfl, c :: cs, by simp, List.mem_cons_self⟩

theorem joinBlank_last : ∀ {ns : List Str}, (∀ n ∈ ns, n ≠ []) → ns ≠ [] → ∃ c, (joinBlank ns).getLast? = some c ∧ ∃ n ∈ ns, c ∈ n
  | [], _, h => absurd rfl h
  | [a], h, _ => by
    have := h a (by simp)
    exact ⟨a.getLast this, List.getLast?_eq_some_getLast this, a, by simp, List.getLast_mem this⟩
  | a :: b :: l, h, _ => by
    obtain ⟨c, h1, n, h2, h3⟩ := joinBlank_last (ns := b :: l) (fun n hn => h n (List.mem_cons_of_mem _ hn)) (by simp)
    refine ⟨c, ?_, n, List.mem_cons_of_mem _ h2, h3⟩
    obtain ⟨ys, e⟩ := List.getLast?_eq_some_iff.1 h1
    apply List.getLast?_eq_some_iff.2
    exact ⟨a ++ ' ' :: ys, by unfold joinBlank; rw [e]; simp⟩

theorem name_chars {c : Char} (h : c ∈ "-_.0123456789ABCDEFGHIJKLMNOPQRSTUVWXYZ".toList) : isSpace c = false ∧ c ≠ ':' ∧ c ≠ '#' ∧ c ≠ '}' ∧ c ≠ '\n' := by
  have key : ∀ c ∈ "-_.0123456789ABCDEFGHIJKLMNOPQRSTUVWXYZ".toList, isSpace c = false ∧ c ≠ ':' ∧ c ≠ '#' ∧ c ≠ '}' ∧ c ≠ '\n' := by decide +kernel
  exact key c h

/-- A printed line of names continues a field. -/
theorem chunk_cont {ns : List Str} (h : ∀ n ∈ ns, n ≠ [] ∧ NameOk n) (hne : ns ≠ []) : Cont (joinBlank ns) := by
  obtain ⟨c, h1, n, h2, h3⟩ := joinBlank_head (fun n hn => (h n hn).1) hne
  obtain ⟨d, g1, m, g2, g3⟩ := joinBlank_last (fun n hn => (h n hn).1) hne
  have hc := name_chars ((h n h2).2 c h3)
  have hd := name_chars ((h m g2).2 d g3)
  have hin : ∀ {x : Char}, x ≠ ' ' → x ∈ joinBlank ns → x ≠ ':' ∧ x ≠ '\n' := by
    intro x hx hm
    rcases joinBlank_mem hm with e | ⟨k, k1, k2⟩
    · exact absurd e hx
    · have := name_chars ((h k k1).2 x k2)
      exact ⟨this.2.1, this.2.2.2.2⟩
  refine ⟨⟨fun e => (hin (by decide) e).2 rfl, fun x hx => ?_, fun x hx => ?_⟩, ?_, ?_, ?_⟩
  · rw [h1] at hx; cases hx; exact hc.1
  · rw [g1] at hx; cases hx; exact hd.1
  · rintro (e | e)
    · rw [e] at h1; cases h1
    · rw [h1] at e; cases e; exact hc.2.2.1 rfl
  · rintro ⟨a, b, e⟩
    exact (hin (x := ':') (by decide) (by rw [e]; simp)).1 rfl
  · intro e
    rw [h1] at e; cases e; exact hc.2.2.2.1 rfl

theorem chunk_names {ns : List Str} (h : ∀ n ∈ ns, n ≠ [] ∧ NameOk n) (hs : ns.Pairwise fun a b => strLt a b = true) : NamesAre (joinBlank ns) ns :=
  ⟨ns, wordsAre_blank fun n hn => ⟨(h n hn).1, name_space (h n hn).2⟩, fun n hn => (h n hn).2, fun _ => Iff.rfl, hs⟩

/-! ### what is read again -/

theorem body_append {a b c : List Field} {l m : List Str} (h1 : Body a l b) (h2 : Body b m c) : Body a (l ++ m) c := by
  induction h1 with
  | nil => exact h2
  | cons h _ ih => exact .cons h (ih h2)

theorem body_text {acc : List Field} {name : Str} : ∀ {ls : List Str} {s : Str}, (∀ l ∈ ls, Cont l) →
    Body (acc ++ [⟨name, .text s⟩]) ls (acc ++ [⟨name, .text (s ++ ls.flatMap fun l => '\n' :: l)⟩])
  | [], s, _ => by
    rw [List.flatMap_nil, List.append_nil]
    exact .nil
  | l :: ls, s, h => by
    have hl := h l List.mem_cons_self
    refine .cons (.more hl.live hl.colons hl.brace .text) ?_
    have := body_text (acc := acc) (name := name) (ls := ls) (s := s ++ '\n' :: l) fun x hx => h x (List.mem_cons_of_mem _ hx)
    rwa [List.append_assoc] at this

theorem body_names {acc : List Field} {name : Str} : ∀ {cs : List (List Str)} {ns : List Str}, (∀ n ∈ cs.flatten, n ≠ [] ∧ NameOk n) →
    (ns ++ cs.flatten).Pairwise (fun a b => strLt a b = true) →
    Body (acc ++ [⟨name, .names ns⟩]) (cs.map joinBlank) (acc ++ [⟨name, .names (ns ++ cs.flatten)⟩])
  | [], ns, _, _ => by
    rw [List.flatten_nil, List.append_nil]
    exact .nil
  | c :: cs, ns, h, hs => by
    rw [List.flatten_cons] at h hs ⊢
    rw [← List.append_assoc] at hs ⊢
    have hc : ∀ n ∈ c, n ≠ [] ∧ NameOk n := fun n hn => h n (List.mem_append_left _ hn)
    have ih := body_names (acc := acc) (name := name) (cs := cs) (ns := ns ++ c) (fun n hn => h n (List.mem_append_right _ hn)) hs
    have hs' := (List.pairwise_append.1 hs).1
    refine .cons ?_ ih
    by_cases he : c = []
    · subst he
      rw [List.append_nil]
      exact .skip (.inl rfl)
    · have hl := chunk_cont hc he
      exact .more hl.live hl.colons hl.brace (.names (chunk_names hc (List.pairwise_append.1 hs').2.1) (fun n => List.mem_append) hs')

theorem strip_indent {n : Nat} {l : Str} (h : Clean l) : strip (List.replicate n ' ' ++ l) = l := by
  have := strip_around (a := List.replicate n ' ') (b := []) (s := l)
    (fun c hc => by rw [(List.mem_replicate.1 hc).2]; decide) (fun c hc => by cases hc) h.head h.last
  rwa [List.append_nil] at this

theorem strip_first {f : Field} (h : GoodField f) {v b : Str} (hb : Blank b) (hv : ∀ c, v.getLast? = some c → isSpace c = false) :
    strip ("  ".toList ++ f.name ++ "::".toList ++ (v ++ b)) = f.name ++ ':' :: ':' :: v := by
  obtain ⟨_, _, _, _, c, h1, h2, _⟩ := name_clean h
  have := strip_around (a := "  ".toList) (b := b) (s := f.name ++ ':' :: ':' :: v)
    (fun c hc => by
      have : c ∈ [' ', ' '] := hc
      simp at this
      subst this
      decide) hb
    (fun x hx => by
      cases hn : f.name with
      | nil => rw [hn] at h1; cases h1
      | cons a as =>
        rw [hn] at h1 hx
        cases h1
        cases hx
        exact h2)
    (fun x hx => by
      cases hv' : v.getLast? with
      | none =>
        rw [List.getLast?_eq_none_iff] at hv'
        subst hv'
        have : (f.name ++ [':', ':']).getLast? = some ':' := List.getLast?_eq_some_iff.2 ⟨f.name ++ [':'], by simp⟩
        rw [this] at hx
        cases hx
        decide
      | some y =>
        obtain ⟨ys, rfl⟩ := List.getLast?_eq_some_iff.1 hv'
        have : (f.name ++ ':' :: ':' :: (ys ++ [y])).getLast? = some y := List.getLast?_eq_some_iff.2 ⟨f.name ++ ':' :: ':' :: ys, by simp⟩
        rw [this] at hx
        cases hx
        exact hv _ hv')
  rw [← this]
  congr 1
  simp

theorem step_first {f : Field} (h : GoodField f) {acc : List Field} {v : Str} {w : Val} (hw : ValueIs f.name v w) :
    Step acc (f.name ++ ':' :: ':' :: v) (acc ++ [⟨f.name, w⟩]) := by
  obtain ⟨_, k1, k2, k3, c, h1, h2, h3⟩ := name_clean h
  refine .field ?_ ⟨f.name, f.name, v, rfl, ?_, trim_iff.2 k2, k3, hw⟩
  · rintro (e | e)
    · cases hn : f.name with
      | nil => rw [hn] at h1; cases h1
      | cons a as => rw [hn] at e; cases e
    · cases hn : f.name with
      | nil => rw [hn] at h1; cases h1
      | cons a as =>
        rw [hn] at e h1
        cases h1
        cases e
        exact h3 rfl
  · rintro ⟨a, b, e⟩
    have h4 : (f.name ++ [':']).length = a.length + (b.length + 2) := by rw [e]; simp
    have h5 : ':' ∈ f.name := by
      have h6 : (f.name ++ [':'])[a.length]? = some ':' := by rw [e]; simp
      rw [List.getElem?_append_left (by simp at h4; omega)] at h6
      exact List.mem_of_getElem? h6
    exact k1 h5

theorem joinLines_flat : ∀ {a : Str} {l : List Str}, joinLines (a :: l) = a ++ l.flatMap fun x => '\n' :: x
  | a, [] => by simp [joinLines]
  | a, b :: l => by
    unfold joinLines
    rw [joinLines_flat, List.flatMap_cons]
    rfl

theorem body_field {f : Field} (h : GoodField f) (acc : List Field) : Body acc ((fieldLines f).map strip) (acc ++ [keepField f]) := by
  cases hf : h with
  | @text name v ls k1 k2 k3 k4 =>
    have hn : ∀ l ∈ ls, '\n' ∉ l := fun l hl => (k4 l hl).clean.one
    have key : (fieldLines ⟨name, .text (v ++ ls.flatMap fun l => '\n' :: l)⟩).map strip = (name ++ ':' :: ':' :: v) :: ls := by
      have h1 : ∀ (n : Nat) (ls : List Str), (∀ l ∈ ls, Cont l) → (ls.map (fun l => List.replicate n ' ' ++ l)).map strip = ls := by
        intro n ls hls
        rw [List.map_map]
        refine (List.map_congr_left fun l hl => ?_).trans (List.map_id ls)
        exact strip_indent (hls l hl).clean
      have h2 := strip_first h (v := v) (b := []) (fun c hc => by cases hc) k3
      rw [List.append_nil] at h2
      unfold fieldLines valueStr
      dsimp only
      split
      next hs =>
        split at hs
        · rw [indent_lines k2 hn, splitOn_join' k2 fun l hl => by
            obtain ⟨x, hx, rfl⟩ := List.mem_map.1 hl
            exact fun e => hn x hx (by simpa using e)] at hs
          cases hs
        · rw [splitOn_join' k2 hn] at hs
          cases hs
      next v' ls' hs =>
        split at hs
        · rw [indent_lines k2 hn, splitOn_join' k2 fun l hl => by
            obtain ⟨x, hx, rfl⟩ := List.mem_map.1 hl
            exact fun e => hn x hx (by simpa using e)] at hs
          cases hs
          rw [List.map_cons, h2, List.map_map (f := fun l => List.replicate 1 ' ' ++ l)]
          have : ((fun l => List.replicate (name.length + 5) ' ' ++ l) ∘ fun l => List.replicate 1 ' ' ++ l) =
              fun l => List.replicate (name.length + 5 + 1) ' ' ++ l := by
            funext l
            show List.replicate (name.length + 5) ' ' ++ (List.replicate 1 ' ' ++ l) = _
            rw [← List.append_assoc, List.replicate_append_replicate]
          rw [this, h1 _ ls k4]
        · rw [splitOn_join' k2 hn] at hs
          cases hs
          rw [List.map_cons, h2, h1 _ ls k4]
    rw [key]
    exact .cons (step_first h k1) (body_text k4)
  | @names name ns k1 k2 k3 =>
    have hso : isort (fun a b => !strLt b a) ns = ns := by
      refine isort_of_sorted (k3.imp fun {a b} hab => ?_)
      rw [strLt_asymm hab]
      rfl
    have hk : ∀ n ∈ (chunks ns 0 []).flatten, n ≠ [] ∧ NameOk n := fun n hn => k2 n ((keep_sub ns).subset hn)
    have hks : (chunks ns 0 []).flatten.Pairwise (fun a b => strLt a b = true) := k3.sublist (keep_sub ns)
    unfold keepField keep fieldLines valueStr
    dsimp only
    rw [hso, wrap_chunks, List.nil_append]
    generalize chunks ns 0 [] = cs at hk hks
    cases cs with
    | nil =>
      have h2 := strip_first h (v := []) (b := [' ']) (fun c hc => by cases List.mem_singleton.1 hc; decide) (fun c hc => by cases hc)
      have h3 : splitOn '\n' (' ' :: joinLines (List.map joinBlank [])) = [[' ']] := by decide
      rw [h3]
      dsimp only
      rw [List.map_cons, List.map_nil, List.map_nil]
      rw [List.nil_append] at h2
      rw [h2]
      exact .cons (step_first h (.naming k1 ⟨[], .nil (fun c hc => by cases hc), fun w hw => (by cases hw), fun _ => Iff.rfl, .nil⟩)) .nil
    | cons c cs =>
      rw [List.flatten_cons] at hk hks
      have hc : ∀ n ∈ c, n ≠ [] ∧ NameOk n := fun n hn => hk n (List.mem_append_left _ hn)
      have hcs : ∀ d ∈ cs, ∀ n ∈ d, n ≠ [] ∧ NameOk n := fun d hd n hn => hk n (List.mem_append_right _ (List.mem_flatten.2 ⟨d, hd, hn⟩))
      have hone : ∀ d : List Str, (∀ n ∈ d, n ≠ [] ∧ NameOk n) → '\n' ∉ joinBlank d := by
        intro d hd e
        rcases joinBlank_mem e with e | ⟨n, h1, h2⟩
        · exact absurd e (by decide)
        · exact (name_chars ((hd n h1).2 _ h2)).2.2.2.2 rfl
      have hcl : ∀ d : List Str, (∀ n ∈ d, n ≠ [] ∧ NameOk n) → Clean (joinBlank d) := by
        intro d hd
        by_cases he : d = []
        · subst he
          exact ⟨nofun, nofun, nofun⟩
        · exact (chunk_cont hd he).clean
      have h3 : splitOn '\n' (' ' :: joinLines (List.map joinBlank (c :: cs))) = (' ' :: joinBlank c) :: cs.map joinBlank := by
        rw [List.map_cons, joinLines_flat, ← List.cons_append]
        apply splitOn_join'
        · intro e
          rcases List.mem_cons.1 e with e | e
          · exact absurd e (by decide)
          · exact hone c hc e
        · intro l hl
          obtain ⟨d, hd, rfl⟩ := List.mem_map.1 hl
          exact hone d (hcs d hd)
      rw [h3]
      dsimp only
      have h4 : ((cs.map joinBlank).map (fun l => List.replicate (name.length + 5) ' ' ++ l)).map strip = cs.map joinBlank := by
        rw [List.map_map, List.map_map]
        apply List.map_congr_left
        intro d hd
        exact strip_indent (hcl d (hcs d hd))
      rw [List.map_cons, h4]
      have hn : NamesAre (joinBlank c) c := chunk_names hc (List.pairwise_append.1 hks).1
      have hb := body_names (acc := acc) (name := name) (cs := cs) (ns := c) (fun n hn => hk n (List.mem_append_right _ hn)) hks
      by_cases he : c = []
      · subst he
        have h2 := strip_first h (v := []) (b := [' ']) (fun c hc => by cases List.mem_singleton.1 hc; decide) (fun c hc => by cases hc)
        rw [List.nil_append] at h2
        have h2' : strip ("  ".toList ++ name ++ "::".toList ++ ' ' :: joinBlank []) = _ := h2
        rw [h2']
        exact .cons (step_first h (.naming k1 hn)) hb
      · have h2 := strip_first h (v := ' ' :: joinBlank c) (b := []) (fun c hc => by cases hc) (fun x hx => by
          obtain ⟨y, g1, m, g2, g3⟩ := joinBlank_last (fun n hn => (hc n hn).1) he
          obtain ⟨ys, e⟩ := List.getLast?_eq_some_iff.1 g1
          rw [e] at hx
          have : (' ' :: (ys ++ [y])).getLast? = some y := List.getLast?_eq_some_iff.2 ⟨' ' :: ys, by simp⟩
          rw [this] at hx
          cases hx
          exact (name_chars ((hc m g2).2 _ g3)).1)
        rw [List.append_nil] at h2
        dsimp only at h2
        rw [h2]
        refine .cons (step_first h (.naming k1 ?_)) hb
        obtain ⟨ws, w1, w2⟩ := hn
        refine ⟨ws, ?_, w2⟩
        rw [wordsAre_iff] at w1 ⊢
        rw [← w1]
        rfl

theorem body_fields : ∀ {fs : List Field}, (∀ f ∈ fs, GoodField f) → ∀ acc : List Field,
    Body acc ((fs.flatMap fieldLines).map strip) (acc ++ fs.map keepField)
  | [], _, acc => by
    rw [List.flatMap_nil, List.map_nil, List.map_nil, List.append_nil]
    exact .nil
  | f :: fs, h, acc => by
    rw [List.flatMap_cons, List.map_append]
    have := body_fields (fun g hg => h g (List.mem_cons_of_mem _ hg)) (acc ++ [keepField f])
    rw [List.append_assoc, List.singleton_append] at this
    exact body_append (body_field (h f List.mem_cons_self) acc) this

/-- The member that is read again. -/
def keepMember : Member → Member
  | .block b => .block ⟨b.term, b.fields.map keepField⟩
  | m => m

/-- The first line of a printed block. -/
def openLine : Option Str → Str
  | none => "header {".toList
  | some n => "term ".toList ++ (if n.isEmpty then [] else n ++ [' ']) ++ ['{']

/-- The lines of a printed member that includes nothing. -/
def memberLines : Member → List Str
  | .blank => [[]]
  | .comment l => [l]
  | .incl _ => []
  | .block b => openLine b.term :: (b.fields.flatMap fieldLines ++ ["}".toList])

theorem fields_lines : ∀ fs : List Field, (fs.flatMap fun f => "  ".toList ++ fieldStr f ++ ['\n']) = (fs.flatMap fieldLines).flatMap fun l => l ++ ['\n']
  | [] => rfl
  | f :: fs => by
    rw [List.flatMap_cons, List.flatMap_cons, List.flatMap_append, fields_lines fs, field_lines]

theorem member_lines {m : Member} (h : ∀ r, m ≠ .incl r) : memberStr m = (memberLines m).flatMap fun l => l ++ ['\n'] := by
  cases m with
  | blank => rfl
  | comment l =>
    show l ++ ['\n'] = l ++ ['\n'] ++ []
    rw [List.append_nil]
  | incl r => exact absurd rfl (h r)
  | block b =>
    obtain ⟨t, fs⟩ := b
    show blockStr ⟨t, fs⟩ = (openLine t :: (fs.flatMap fieldLines ++ ["}".toList])).flatMap fun l => l ++ ['\n']
    unfold blockStr
    rw [fields_lines, List.flatMap_cons, List.flatMap_append]
    generalize (List.flatMap fieldLines fs).flatMap (fun l => l ++ ['\n']) = X
    have e2 : (["}".toList].flatMap fun l => l ++ ['\n']) = "}\n".toList := by decide
    have e3 : "{\n".toList = ['{'] ++ ['\n'] := by decide
    rw [e2, ← List.append_assoc]
    congr 2
    cases t with
    | none => exact (by decide : "header ".toList ++ "{\n".toList = openLine none ++ ['\n'])
    | some n =>
      unfold openLine
      dsimp only
      rw [e3, List.append_assoc _ ['{']]

theorem policy_lines : ∀ {ms : List Member}, (∀ m ∈ ms, ∀ r, m ≠ .incl r) → policyStr ms = (ms.flatMap memberLines).flatMap fun l => l ++ ['\n']
  | [], _ => rfl
  | m :: ms, h => by
    have := policy_lines (ms := ms) fun x hx => h x (List.mem_cons_of_mem _ hx)
    unfold policyStr at this ⊢
    rw [List.flatMap_cons, List.flatMap_cons, List.flatMap_append, this, member_lines (h m List.mem_cons_self)]

theorem openLine_clean {t : Option Str} (h : ∀ n, t = some n → '{' ∉ n ∧ ∀ c ∈ n, isSpace c = false) : Clean (openLine t) := by
  cases t with
  | none => exact ⟨by decide, by decide, by decide⟩
  | some n =>
    obtain ⟨_, h2⟩ := h n rfl
    refine ⟨fun e => ?_, fun c hc => ?_, fun c hc => ?_⟩
    · unfold openLine at e
      dsimp only at e
      have hn : '\n' ∉ n := fun e => by
        have := h2 _ e
        cases this
      split at e
      · exact absurd e (by decide)
      · simp [hn] at e
    · have e : (openLine (some n)).head? = some 't' := rfl
      rw [e] at hc
      injection hc with hc
      subst hc
      decide
    · have e : (openLine (some n)).getLast? = some '{' := List.getLast?_eq_some_iff.2 ⟨_, rfl⟩
      rw [e] at hc
      injection hc with hc
      subst hc
      decide

theorem openLine_opens {t : Option Str} (h : ∀ n, t = some n → '{' ∉ n ∧ ∀ c ∈ n, isSpace c = false) : Opens (openLine t) t := by
  cases t with
  | none => exact .inl ⟨rfl, [], .inl rfl⟩
  | some n =>
    obtain ⟨h1, h2⟩ := h n rfl
    by_cases he : n = []
    · subst he
      refine .inr ⟨[], "term".toList, ['{'], [], ['{'], rfl, rfl, wordsAre_iff.2 (by decide), by decide, .inl ⟨[], rfl⟩⟩
    · have e : openLine (some n) = joinBlank ["term".toList, n, ['{']] := by
        unfold openLine
        dsimp only
        rw [if_neg (by simpa using he)]
        simp [joinBlank]
      refine .inr ⟨n, "term".toList, n, [['{']], n ++ " {".toList, rfl, ?_, ?_, h1, .inr ⟨rfl, [], [], rfl⟩⟩
      · rw [e]
        simp [joinBlank]
      · rw [e]
        refine wordsAre_blank fun w hw => ?_
        simp only [List.mem_cons, List.not_mem_nil, or_false] at hw
        rcases hw with rfl | rfl | rfl
        · exact ⟨by decide, by decide⟩
        · exact ⟨he, h2⟩
        · exact ⟨by decide, by decide⟩

theorem memberLines_one {m : Member} (h : GoodMember m) : ∀ l ∈ memberLines m, '\n' ∉ l := by
  cases h with
  | blank => intro l hl; cases List.mem_singleton.1 hl; simp
  | comment h => intro l hl; cases List.mem_singleton.1 hl; exact h.one
  | incl => intro l hl; cases hl
  | @block t fs h1 h2 =>
    intro l hl
    rcases List.mem_cons.1 hl with rfl | hl
    · exact (openLine_clean h1).one
    · rcases List.mem_append.1 hl with hl | hl
      · obtain ⟨f, hf, hl⟩ := List.mem_flatMap.1 hl
        exact fieldLines_one (h2 f hf) l hl
      · cases List.mem_singleton.1 hl
        decide

theorem reads_again : ∀ {ms : List Member}, (∀ m ∈ ms, GoodMember m) → (∀ m ∈ ms, ∀ r, m ≠ .incl r) →
    Reads ((ms.flatMap memberLines).map strip ++ [[]]) (ms.map keepMember ++ [.blank])
  | [], _, _ => .blank .nil
  | m :: ms, h, hi => by
    have ih := reads_again (fun x hx => h x (List.mem_cons_of_mem _ hx)) fun x hx => hi x (List.mem_cons_of_mem _ hx)
    have hm := h m List.mem_cons_self
    rw [List.flatMap_cons, List.map_append, List.append_assoc, List.map_cons, List.cons_append]
    cases hm with
    | blank => exact .blank ih
    | @comment l h1 h2 h3 =>
      have : (memberLines (.comment l)).map strip = [l] := by
        show [strip l] = [l]
        rw [clean_strip h1]
      rw [this]
      exact .comment h2 h3 ih
    | @incl r => exact absurd rfl (hi _ List.mem_cons_self r)
    | @block t fs h1 h2 =>
      have : (memberLines (.block ⟨t, fs⟩)).map strip = openLine t :: ((fs.flatMap fieldLines).map strip ++ ["}".toList]) := by
        show strip (openLine t) :: (fs.flatMap fieldLines ++ ["}".toList]).map strip = _
        rw [clean_strip (openLine_clean h1), List.map_append]
        rfl
      rw [this, List.cons_append, List.append_assoc, List.singleton_append]
      have hb := body_fields h2 []
      rw [List.nil_append] at hb
      exact .block (openLine_opens h1) hb ⟨rfl, fun ⟨a, b, e⟩ => by
        have := congrArg List.length e
        simp at this
        omega⟩ ih

theorem parse_again {ms : List Member} (h : ∀ m ∈ ms, GoodMember m) (hi : ∀ m ∈ ms, ∀ r, m ≠ .incl r) :
    parse (policyStr ms) = .ok (ms.map keepMember ++ [.blank]) := by
  unfold parse
  rw [policy_lines hi, splitOn_lines fun l hl => by
    obtain ⟨m, hm, hl⟩ := List.mem_flatMap.1 hl
    exact memberLines_one (h m hm) l hl, List.map_append]
  exact ((parseLines_iff _).1 _).2 (reads_again h hi)

end SimpleL
end Verif
