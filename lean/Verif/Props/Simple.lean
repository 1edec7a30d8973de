import Verif.Lemmas.SimplePrint

/-!
Claims about the line-oriented policy parser of capirca/lib/policy_simple.py.
-/

namespace Verif.Props
open PyStr Verif.Simple Verif.SimpleL
open Verif.Spec.Simple (LinesAre Opens Reads Fits Each LessField LessMember)

/-! ### C162: what is read -/

/-- A text is read if and only if its lines are comments, blank lines, includes, and headers and terms that open and close on lines of
their own; what is read are these in their order, with every field and its continuations. -/
theorem C162_read (text : Str) (ms : List Member) : parse text = .ok ms ↔ ∃ ls, LinesAre text ls ∧ Reads ls ms := by
  unfold parse
  rw [(parseLines_iff _).1]
  constructor
  · exact fun h => ⟨_, linesAre_iff.2 rfl, h⟩
  · rintro ⟨ls, h1, h2⟩
    rw [linesAre_iff.1 h1]
    exact h2

/-- A policy with a header, an include and a term. -/
def simpleText : Str :=
  "header {\n  comment:: \"one\n    two\"\n  target:: cisco x\n}\n\n# text\n#include a.inc # more\nterm t-1{\n  Source-Address:: B A\n    # none\n    C\n  action:: accept::\n}\n".toList

/-- What is in it. -/
def simpleMembers : List Member :=
  [.block ⟨none, [⟨"comment".toList, .text " \"one\ntwo\"".toList⟩, ⟨"target".toList, .text " cisco x".toList⟩]⟩, .blank,
   .comment "# text".toList, .incl "a.inc".toList,
   .block ⟨some "t-1".toList, [⟨"source-address".toList, .names ["A".toList, "B".toList, "C".toList]⟩,
     ⟨"action".toList, .text " accept::".toList⟩]⟩, .blank]

theorem simple_reads : parse simpleText = .ok simpleMembers := by decide +kernel

example : ∃ ls, LinesAre simpleText ls ∧ Reads ls simpleMembers := (C162_read _ _).1 simple_reads

/-- A block that is not closed, a field that is not known, a name in lower case, and a line outside of blocks are refused. -/
example : parse "term t {\n".toList = .error .valueError ∧ parse "term t {\n  colour:: red\n}".toList = .error .valueError ∧
    parse "term t {\n  source-port:: http\n}".toList = .error .valueError ∧ parse "action:: accept\n".toList = .error .valueError := by
  decide +kernel

/-- What stands after the brace of the line that opens a term is lost, with the fields in it. -/
theorem C162_brace {name x : Str} (h1 : name ≠ []) (h2 : '{' ∉ name) (h3 : ∀ c ∈ name, isSpace c = false) (hx : '\n' ∉ x) :
    parse ("term ".toList ++ name ++ " {".toList ++ x ++ "\n}".toList) = .ok [.block ⟨some name, []⟩] := by
  rw [C162_read]
  have e : "term ".toList ++ name ++ " {".toList ++ x ++ "\n}".toList = ("term ".toList ++ name ++ " {".toList ++ x) ++ '\n' :: "}".toList :=
    rfl
  have hn : '\n' ∉ name := fun h => by
    have := h3 _ h
    cases this
  have h0 : '\n' ∉ "term ".toList ++ name ++ " {".toList ++ x := by
    simp only [List.mem_append, not_or]
    exact ⟨⟨⟨by decide, hn⟩, by decide⟩, hx⟩
  rw [e]
  refine ⟨_, LinesAre.more h0 (trim_iff.2 rfl) (.last (by decide) (trim_iff.2 rfl)), ?_⟩
  have hw : words (strip ("term ".toList ++ name ++ " {".toList ++ x)) = "term".toList :: name :: words ('{' :: x) := by
    rw [words_strip]
    have hb : Spec.Blank [] := by intro c hc; cases hc
    have hb' : Spec.Blank [' '] := by intro c hc; cases List.mem_singleton.1 hc; decide
    have hin : words (' ' :: (name ++ (' ' :: '{' :: x))) = name :: words ('{' :: x) :=
      words_cons.2 ⟨[' '], ' ' :: '{' :: x, rfl, hb', h1, h3, .inr ⟨' ', _, rfl, by decide⟩, rfl⟩
    refine words_cons.2 ⟨[], ' ' :: (name ++ (' ' :: '{' :: x)), by simp, hb, by decide, by decide, .inr ⟨' ', _, rfl, by decide⟩, hin⟩
  obtain ⟨v, rest, h4⟩ : ∃ v rest, words ('{' :: x) = ('{' :: v) :: rest := by
    cases hv : words ('{' :: x) with
    | nil =>
      have := words_nil.1 hv '{' List.mem_cons_self
      cases this
    | cons w ws =>
      obtain ⟨sp, rest, g1, g2, g3, _⟩ := words_cons.1 hv
      cases sp with
      | cons c cs =>
        cases g1
        have := g2 '{' List.mem_cons_self
        cases this
      | nil =>
        cases w with
        | nil => exact absurd rfl g3
        | cons c cs =>
          cases g1
          exact ⟨cs, ws, rfl⟩
  obtain ⟨a, b, g1, g2, g3, g4, g5⟩ := trim_iff.2 (rfl : strip ("term ".toList ++ name ++ " {".toList ++ x) = _)
  have hopen : Opens (strip ("term ".toList ++ name ++ " {".toList ++ x)) (some name) := by
    have hp : ∃ r, strip ("term ".toList ++ name ++ " {".toList ++ x) = "term ".toList ++ r := by
      have ha : a = [] := by
        cases a with
        | nil => rfl
        | cons c cs =>
          have g6 := congrArg List.head? g1
          have g7 : some 't' = some c := g6
          have := g2 c List.mem_cons_self
          rw [← Option.some.inj g7] at this
          cases this
      subst ha
      rw [List.nil_append] at g1
      have hm : ∃ y, strip ("term ".toList ++ name ++ " {".toList ++ x) ++ b = "term ".toList ++ (name ++ ' ' :: '{' :: y) := ⟨x, by rw [← g1]; simp⟩
      obtain ⟨y, hm⟩ := hm
      generalize strip ("term ".toList ++ name ++ " {".toList ++ x) = l at hm
      rcases List.append_eq_append_iff.1 hm with ⟨c, k1, k2⟩ | ⟨c, k1, k2⟩
      · exfalso
        have : '{' ∈ b := by rw [k2]; simp
        have := g3 _ this
        cases this
      · exact ⟨c, k1⟩
    obtain ⟨r, hr⟩ := hp
    exact .inr ⟨name, _, name, _, r, rfl, hr, wordsAre_iff.2 hw, h2, .inr ⟨rfl, v, rest, h4⟩⟩
  refine Reads.block (body := []) hopen .nil ⟨rfl, fun ⟨p, q, e⟩ => ?_⟩ .nil
  have h5 : strip "}".toList = ['}'] := by decide
  rw [h5] at e
  have := congrArg List.length e
  simp at this
  omega

example : parse "term t { action:: deny }\n}".toList = .ok [.block ⟨some "t".toList, []⟩] :=
  C162_brace (name := "t".toList) (x := " action:: deny }".toList) (by decide) (by decide) (by decide) (by decide)

/-! ### C163: what is printed is read again -/

/-- What is printed of a policy without includes is read again, as the policy with a blank line after it, if and only if the names of
each field fit on one line. -/
theorem C163_again_partial {text : Str} {ms : List Member} (h : parse text = .ok ms) (hi : ∀ m ∈ ms, ∀ r, m ≠ .incl r) :
    parse (policyStr ms) = .ok (ms ++ [.blank]) ↔ ∀ b, .block b ∈ ms → ∀ f ∈ b.fields, ∀ l, f.val = .names l → Fits l := by
  obtain ⟨ls, h1, h2⟩ := (C162_read _ _).1 h
  have hg := reads_good h2 (linesAre_clean h1)
  rw [parse_again hg hi]
  have names : ∀ b, Member.block b ∈ ms → ∀ f ∈ b.fields, ∀ l, f.val = .names l → ∀ n ∈ l, n ≠ [] := by
    intro b hb f hf l hl n hn
    have := hg _ hb
    cases this with
    | block _ k =>
      have hgf := k f hf
      cases hgf with
      | text => cases hl
      | names _ k2 _ => cases hl; exact (k2 n hn).1
  constructor
  · intro h b hb f hf l hl
    have h : ms.map keepMember = ms := List.append_cancel_right (Except.ok.inj h)
    have hm : keepMember (.block b) = .block b := List.map_inj_left.1 (h.trans (List.map_id ms).symm) _ hb
    have hfs : b.fields.map keepField = b.fields := congrArg (fun m => match m with | .block b => b.fields | _ => []) hm
    have hk : keepField f = f := List.map_inj_left.1 (hfs.trans (List.map_id _).symm) f hf
    rw [← keep_iff (names b hb f hf l hl)]
    obtain ⟨nm, v⟩ := f
    cases hl
    have := congrArg Field.val hk
    exact Val.names.inj this
  · intro h
    have : ms.map keepMember = ms := by
      refine (List.map_congr_left fun m hm => ?_).trans (List.map_id ms)
      cases m with
      | block b =>
        show Member.block ⟨b.term, b.fields.map keepField⟩ = .block b
        have : b.fields.map keepField = b.fields := by
          refine (List.map_congr_left fun f hf => ?_).trans (List.map_id _)
          obtain ⟨nm, v⟩ := f
          cases v with
          | text => rfl
          | names l =>
            show Field.mk nm (.names (keep l)) = _
            rw [(keep_iff (names b hm _ hf l rfl)).2 (h b hm _ hf l rfl)]
            rfl
        rw [this]
      | _ => rfl
    rw [this]

/-- Whatever is read, what is printed of a policy without includes is read again, and all that is lost are names. -/
theorem C163_less_partial {text : Str} {ms : List Member} (h : parse text = .ok ms) (hi : ∀ m ∈ ms, ∀ r, m ≠ .incl r) :
    ∃ ms', parse (policyStr ms) = .ok (ms' ++ [.blank]) ∧ Each LessMember ms' ms := by
  obtain ⟨ls, h1, h2⟩ := (C162_read _ _).1 h
  refine ⟨ms.map keepMember, parse_again (reads_good h2 (linesAre_clean h1)) hi, ?_⟩
  have key : ∀ {α : Type} (r : α → α → Prop) (g : α → α) (l : List α), (∀ a, r (g a) a) → Each r (l.map g) l := by
    intro α r g l hr
    induction l with
    | nil => exact .nil
    | cons a l ih => exact .cons (hr a) ih
  refine key _ _ _ fun m => ?_
  cases m with
  | block b =>
    refine .block (key _ _ _ fun f => ?_)
    obtain ⟨nm, v⟩ := f
    cases v with
    | text => exact .same
    | names l => exact .names (keep_sub l)
  | _ => exact .same

/-- A policy without includes. -/
def simplePlain : Str :=
  "header {\n  comment:: \"one\n    two\"\n}\n# text\nterm t {\n  source-address:: B A\n    C\n  timeout:: 60\n}".toList

/-- What is in it. -/
def simplePlainMembers : List Member :=
  [.block ⟨none, [⟨"comment".toList, .text " \"one\ntwo\"".toList⟩]⟩, .comment "# text".toList,
   .block ⟨some "t".toList, [⟨"source-address".toList, .names ["A".toList, "B".toList, "C".toList]⟩, ⟨"timeout".toList, .text " 60".toList⟩]⟩]

theorem simplePlain_reads : parse simplePlain = .ok simplePlainMembers := by decide +kernel

theorem simplePlain_incl : ∀ m ∈ simplePlainMembers, ∀ r, m ≠ .incl r := by
  intro m hm r
  simp only [simplePlainMembers, List.mem_cons, List.not_mem_nil, or_false] at hm
  rcases hm with rfl | rfl | rfl <;> exact Member.noConfusion

example : parse (policyStr simplePlainMembers) = .ok (simplePlainMembers ++ [.blank]) := by
  refine (C163_again_partial simplePlain_reads simplePlain_incl).2 ?_
  intro b hb f hf l hl
  simp only [simplePlainMembers, List.mem_cons, List.not_mem_nil, or_false] at hb
  rcases hb with hb | hb | hb
  · cases hb
    cases List.mem_singleton.1 hf
    cases hl
  · cases hb
  · cases hb
    simp only [List.mem_cons, List.not_mem_nil, or_false] at hf
    rcases hf with rfl | rfl
    · cases hl
      exact (by decide : Spec.Simple.width ["A".toList, "B".toList, "C".toList] ≤ 61)
    · cases hl

example : ∃ ms', parse (policyStr simplePlainMembers) = .ok (ms' ++ [.blank]) ∧ Each LessMember ms' simplePlainMembers :=
  C163_less_partial simplePlain_reads simplePlain_incl

/-- A term with names that do not fit on a line. -/
def longNames : Str :=
  "term t {\n  source-address:: A2345678901234567890123456789 B2345678901234567890123456789 C234\n}".toList

/-- A name is lost where the line of the printed names ends. -/
theorem C163_refuted_names : ¬ ∀ (text : Str) (ms : List Member), parse text = .ok ms → (∀ m ∈ ms, ∀ r, m ≠ .incl r) →
    parse (policyStr ms) = .ok (ms ++ [.blank]) := by
  intro h
  let ms : List Member := [.block ⟨some "t".toList, [⟨"source-address".toList, .names ["A2345678901234567890123456789".toList,
    "B2345678901234567890123456789".toList, "C234".toList]⟩]⟩]
  have h1 : parse longNames = .ok ms := by decide +kernel
  have h2 := h _ _ h1 (by
    intro m hm r
    cases List.mem_singleton.1 hm
    exact Member.noConfusion)
  have h3 : ¬ parse (policyStr ms) = .ok (ms ++ [.blank]) := by decide +kernel
  exact h3 h2

/-- What comes after an include is printed on its line, and not read again. -/
theorem C163_refuted_include : ¬ ∀ (text : Str) (ms : List Member), parse text = .ok ms → ∃ ms', parse (policyStr ms) = .ok ms' := by
  intro h
  let ms : List Member := [.incl "a.inc".toList, .block ⟨some "t".toList, []⟩]
  have h1 : parse "#include a.inc\nterm t {\n}".toList = .ok ms := by decide +kernel
  obtain ⟨ms', h2⟩ := h _ _ h1
  have h3 : parse (policyStr ms) = .error .valueError := by decide +kernel
  rw [h2] at h3
  cases h3

/-! ### C164: descriptions -/

/-- A term with verbatim text is described by these fields alone. -/
theorem C164_verbatim_partial (b : Block) (h : ∃ f ∈ b.fields, f.name = "verbatim".toList) :
    ∃ l, describe b = .ok l ∧ l.Sublist b.fields ∧ ∀ f ∈ b.fields, f ∈ l ↔ f.name = "verbatim".toList := by
  refine ⟨withType b "verbatim", ?_, List.filter_sublist, fun f hf => ?_⟩
  · unfold describe
    dsimp only
    rw [if_pos]
    obtain ⟨f, hf, hn⟩ := h
    cases hw : withType b "verbatim" with
    | nil =>
      have : f ∈ withType b "verbatim" := List.mem_filter.2 ⟨hf, by rw [hn]; exact beq_self_eq_true _⟩
      rw [hw] at this
      cases this
    | cons => rfl
  · unfold withType
    rw [List.mem_filter]
    exact ⟨fun h => eq_of_beq h.2, fun h => ⟨hf, by rw [h]; exact beq_self_eq_true _⟩⟩

example : describe ⟨some "t".toList, [⟨"comment".toList, .text "x".toList⟩, ⟨"verbatim".toList, .text " cisco permit".toList⟩]⟩ =
    .ok [⟨"verbatim".toList, .text " cisco permit".toList⟩] := by decide +kernel

/-- No other term can be described: with one action the attempt fails since fields cannot be put into sets, and otherwise since there is
not one action. -/
theorem C164_refuted (b : Block) (h : ∀ f ∈ b.fields, f.name ≠ "verbatim".toList) : ∃ e, describe b = .error e := by
  unfold describe
  have hv : withType b "verbatim" = [] := by
    unfold withType
    rw [List.filter_eq_nil_iff]
    intro f hf hb
    exact h f hf (eq_of_beq hb)
  dsimp only
  rw [hv, if_neg (by decide)]
  cases hc : update (withType b "comment") with
  | error e => exact ⟨e, rfl⟩
  | ok u =>
    dsimp only [bind, Except.bind]
    split
    · exact ⟨_, rfl⟩
    next ha =>
      unfold update
      rw [if_neg (by
        intro he
        rw [List.isEmpty_iff.1 he] at ha
        exact ha (by decide))]
      exact ⟨_, rfl⟩

example : describe ⟨some "t".toList, [⟨"protocol".toList, .text " tcp".toList⟩, ⟨"action".toList, .text " accept".toList⟩]⟩ =
    .error .typeError := by decide +kernel

/-! ### C165: searches -/

theorem indexed_filter {α : Type} (l : List α) (fn : α → Bool) :
    (∀ i a, (i, a) ∈ (l.zipIdx.filter fun e => fn e.1).map (fun e => (e.2, e.1)) ↔ l[i]? = some a ∧ fn a = true) ∧
    ((l.zipIdx.filter fun e => fn e.1).map fun e => (e.2, e.1)).Pairwise fun x y => x.1 < y.1 := by
  constructor
  · intro i a
    simp only [List.mem_map, List.mem_filter, Prod.mk.injEq, Prod.exists]
    constructor
    · rintro ⟨a', i', ⟨h1, h2⟩, rfl, rfl⟩
      exact ⟨List.mk_mem_zipIdx_iff_getElem?.1 h1, h2⟩
    · rintro ⟨h1, h2⟩
      exact ⟨a, i, ⟨List.mk_mem_zipIdx_iff_getElem?.2 h1, h2⟩, rfl, rfl⟩
  · rw [List.pairwise_map]
    apply List.Pairwise.filter
    have : (l.zipIdx.map Prod.snd).Pairwise (· < ·) := by
      rw [List.zipIdx_map_snd]
      exact List.pairwise_lt_range'
    exact List.pairwise_map.1 this

/-- A search in a block gives the places and the fields that match, in their order, and each once. -/
theorem C165_fields (b : Block) (fn : Field → Bool) :
    (∀ i f, (i, f) ∈ matchFields b fn ↔ b.fields[i]? = some f ∧ fn f = true) ∧
    (matchFields b fn).Pairwise fun x y => x.1 < y.1 := indexed_filter _ _

/-- A search in a policy gives the places and the members that match. -/
theorem C165_members (ms : List Member) (fn : Member → Bool) :
    (∀ i m, (i, m) ∈ matchMembers ms fn ↔ ms[i]? = some m ∧ fn m = true) ∧
    (matchMembers ms fn).Pairwise fun x y => x.1 < y.1 := indexed_filter _ _

/-- A search for fields of blocks gives the places of the blocks that match and of their fields that match. -/
theorem C165_both (ms : List Member) (bfn : Member → Bool) (ffn : Field → Bool) :
    (∀ i j f, (i, j, f) ∈ matchBoth ms bfn ffn ↔
      ∃ b, ms[i]? = some (.block b) ∧ bfn (.block b) = true ∧ b.fields[j]? = some f ∧ ffn f = true) ∧
    (matchBoth ms bfn ffn).Pairwise fun x y => x.1 < y.1 ∨ (x.1 = y.1 ∧ x.2.1 < y.2.1) := by
  constructor
  · intro i j f
    unfold matchBoth
    rw [List.mem_flatMap]
    constructor
    · rintro ⟨⟨i', m⟩, h1, h2⟩
      obtain ⟨h3, h4⟩ := ((C165_members ms bfn).1 i' m).1 h1
      cases m with
      | block b =>
        obtain ⟨⟨j', f'⟩, h5, h6⟩ := List.mem_map.1 h2
        cases h6
        obtain ⟨h7, h8⟩ := ((C165_fields b ffn).1 _ _).1 h5
        exact ⟨b, h3, h4, h7, h8⟩
      | _ => cases h2
    · rintro ⟨b, h1, h2, h3, h4⟩
      exact ⟨(i, .block b), ((C165_members ms bfn).1 _ _).2 ⟨h1, h2⟩, List.mem_map.2 ⟨(j, f), ((C165_fields b ffn).1 _ _).2 ⟨h3, h4⟩, rfl⟩⟩
  · unfold matchBoth
    have hin : ∀ (e : Nat × Member), ∀ x ∈ (match e.2 with
        | .block b => (matchFields b ffn).map fun x => (e.1, x.1, x.2)
        | _ => [] : List (Nat × Nat × Field)), x.1 = e.1 := by
      rintro ⟨i, m⟩ x hx
      cases m with
      | block b =>
        obtain ⟨y, _, rfl⟩ := List.mem_map.1 hx
        rfl
      | _ => cases hx
    rw [List.pairwise_flatMap]
    constructor
    · rintro ⟨i, m⟩ _
      cases m with
      | block b =>
        show List.Pairwise _ ((matchFields b ffn).map fun x => (i, x.1, x.2))
        rw [List.pairwise_map]
        exact (C165_fields b ffn).2.imp fun h => .inr ⟨rfl, h⟩
      | _ => exact .nil
    · refine (C165_members ms bfn).2.imp fun {e e'} h x hx y hy => .inl ?_
      rw [hin e x hx, hin e' y hy]
      exact h

example : matchBoth simpleMembers (fun _ => true) (fun f => f.val matches .names _) =
    [(4, 0, ⟨"source-address".toList, .names ["A".toList, "B".toList, "C".toList]⟩)] := by decide +kernel

end Verif.Props
