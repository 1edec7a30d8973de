import Verif.Model.AclReport
import Verif.Spec.AclReport
import Verif.Lemmas.Translate

/-!
C182: the texts of aclcheck.
-/

namespace Verif.Props
open Verif Verif.Policy Verif.Aclcheck
open Verif.Spec.AclReport (cut Told indent bare readMatch readLines readReport readSentence readSentences eachOne Word)

namespace AclReportL

theorem cut_ne (c : Char) : ∀ s : Str, cut c s ≠ []
  | [] => by simp [cut]
  | x :: s => by
    rw [cut]
    split
    · simp
    · split <;> simp

theorem cut_none {c : Char} : ∀ {s : Str}, c ∉ s → cut c s = [s]
  | [], _ => rfl
  | x :: s, h => by
    rw [List.mem_cons, not_or] at h
    rw [cut, if_neg (fun e => h.1 e.symm), cut_none h.2]

theorem cut_append (c : Char) (b : Str) : ∀ a : Str, cut c (a ++ c :: b) = cut c a ++ cut c b
  | [] => by simp [cut]
  | x :: a => by
    rw [List.cons_append, cut, cut, cut_append c b a]
    split
    · rfl
    · cases h : cut c a with
      | nil => exact absurd h (cut_ne c a)
      | cons w ws => rfl

theorem cut_join : ∀ {l : List Str}, l ≠ [] → (∀ s ∈ l, '\n' ∉ s) → cut '\n' (Wrap.joinNl l) = l
  | [], h, _ => absurd rfl h
  | [a], _, h => by
    rw [Wrap.joinNl]
    exact cut_none (h a (by simp))
  | a :: b :: l, _, h => by
    rw [Wrap.joinNl, cut_append, cut_none (h a (by simp)), cut_join (by simp) (fun s hs => h s (by simp [hs]))]
    rfl

/-- The conditions that there can be. -/
def conds : List (List String) :=
  [[], ["first-frag"]].flatMap fun a => [[], ["frag-offset"]].flatMap fun b => [[], ["packet-length"]].flatMap fun c =>
    [[], ["est"]].flatMap fun d => [[], ["tcp-est"]].map fun e => a ++ b ++ c ++ d ++ e

theorem possible_conds (t : Term) : possibleMatch t ∈ conds := by
  unfold possibleMatch
  generalize (t.option.contains "first-fragment") = b1
  generalize (!t.fragmentOffset.isEmpty) = b2
  generalize (!t.packetLength.isEmpty) = b3
  generalize (t.option.contains "established") = b4
  generalize (t.option.contains "tcp-established" && t.protocol.contains "tcp") = b5
  revert b1 b2 b3 b4 b5
  decide +kernel

theorem cond_list : ∀ l ∈ conds, l ≠ [] → (cut ' ' (listText l)).map bare = l.map String.toList := by decide +kernel

theorem cond_join : ∀ l ∈ conds, l ≠ [] → (cut ' ' (joinComma (l.map String.toList))).map bare = l.map String.toList := by decide +kernel

theorem cond_nl : ∀ l ∈ conds, '\n' ∉ listText l ∧ '\n' ∉ joinComma (l.map String.toList) := by decide +kernel

/-- What a match is, of words and known conditions. -/
structure Fine (m : Match) : Prop where
  filter : Word m.filter.toList
  term : Word m.term
  action : Word m.action.toList
  possibles : m.possibles ∈ conds

/-- What should be told. -/
def told (m : Match) : Told := ⟨m.filter.toList, m.term, m.action.toList, m.possibles.map String.toList⟩

theorem filter_line {f : Str} (h : Word f) : indent (cut ' ' ("  filter: ".toList ++ f)) = (2, ["filter:".toList, f]) := by
  have : "  filter: ".toList ++ f = "  filter:".toList ++ ' ' :: f := rfl
  rw [this, cut_append, cut_none h.2.1]
  rfl

theorem term_line {t : Str} : indent (cut ' ' ("          term: ".toList ++ t)) = (10, "term:".toList :: cut ' ' t) := by
  have : "          term: ".toList ++ t = "          term:".toList ++ ' ' :: t := rfl
  rw [this, cut_append]
  rfl

theorem action_line {a r : Str} {l : List Str} (h : cut ' ' r = a :: l) (ha : a ≠ []) : indent (cut ' ' ("                ".toList ++ r)) = (16, a :: l) := by
  have : "                ".toList ++ r = "               ".toList ++ ' ' :: r := rfl
  rw [this, cut_append, h]
  cases a with
  | nil => exact absurd rfl ha
  | cons => rfl

/-- The two lines of a match. -/
theorem match_lines {m : Match} (h : Fine m) : ∃ l a, matchLines m = [l, a] ∧ '\n' ∉ l ∧ '\n' ∉ a ∧
    ∃ x y, indent (cut ' ' l) = (10, "term:".toList :: x) ∧ indent (cut ' ' a) = (16, y) ∧
      ∀ f, readMatch f ("term:".toList :: x) y = some ⟨f, m.term, m.action.toList, m.possibles.map String.toList⟩ := by
  have no : ∀ {a b : Str}, '\n' ∉ a → '\n' ∉ b → '\n' ∉ a ++ b := fun ha hb hm => (List.mem_append.1 hm).elim ha hb
  unfold matchLines
  cases hp : m.possibles with
  | nil =>
    refine ⟨_, _, rfl, no (by decide +kernel) h.term.2.2, no (by decide +kernel) h.action.2.2, [m.term], [m.action.toList], ?_, ?_, fun f => rfl⟩
    · rw [term_line, cut_none h.term.2.1]
    · exact action_line (cut_none h.action.2.1) h.action.1
  | cons p ps =>
    have hc := h.possibles
    rw [hp] at hc
    have hn := (cond_nl _ hc).1
    refine ⟨_, _, rfl, no (by decide +kernel) (no h.term.2.2 (by decide +kernel)),
      no (by decide +kernel) (no h.action.2.2 (no (by decide +kernel) hn)), [m.term, "(possible".toList, "match)".toList],
      m.action.toList :: "if".toList :: cut ' ' (listText (p :: ps)), ?_, ?_, fun f => ?_⟩
    · rw [term_line]
      have : m.term ++ " (possible match)".toList = m.term ++ ' ' :: "(possible match)".toList := rfl
      rw [this, cut_append, cut_none h.term.2.1]
      rfl
    · refine action_line ?_ h.action.1
      have : m.action.toList ++ (" if ".toList ++ listText (p :: ps)) = m.action.toList ++ ' ' :: ("if".toList ++ ' ' :: listText (p :: ps)) := rfl
      rw [this, cut_append, cut_append, cut_none h.action.2.1]
      rfl
    · unfold readMatch
      simp only
      rw [if_pos (by decide +kernel), cond_list _ hc (by simp)]

theorem report_lines : ∀ {ms : List Match} (last : String), (∀ m ∈ ms, Fine m) →
    readLines last.toList (reportLines last ms) = some (ms.map told) ∧ ∀ s ∈ reportLines last ms, '\n' ∉ s
  | [], last, _ => ⟨by rw [reportLines, readLines]; rfl, nofun⟩
  | m :: ms, last, h => by
    obtain ⟨l, a, e1, n1, n2, x, y, e2, e3, e4⟩ := match_lines (h m (by simp))
    obtain ⟨i1, i2⟩ := report_lines (ms := ms) m.filter (fun k hk => h k (by simp [hk]))
    have key : readLines m.filter.toList (l :: a :: reportLines m.filter ms) = some (told m :: ms.map told) := by
      rw [readLines]
      simp only [e2]
      rw [if_neg (by simp), if_pos (by simp)]
      simp only [e3, e4, i1, if_true]
      rfl
    rw [reportLines, e1]
    by_cases hf : m.filter ≠ last
    · rw [if_pos hf]
      have hw := (h m (by simp)).filter
      refine ⟨?_, ?_⟩
      · show readLines last.toList (("  filter: ".toList ++ m.filter.toList) :: l :: a :: reportLines m.filter ms) = _
        rw [readLines]
        simp only [filter_line hw]
        rw [if_pos (by simp)]
        exact key
      · intro s hs
        simp only [List.cons_append, List.nil_append, List.mem_cons] at hs
        rcases hs with rfl | rfl | rfl | hs
        · intro hm
          rcases List.mem_append.1 hm with hm | hm
          · exact absurd hm (by decide +kernel)
          · exact hw.2.2 hm
        · exact n1
        · exact n2
        · exact i2 s hs
    · rw [if_neg hf]
      have hf := Classical.not_not.1 hf
      subst hf
      refine ⟨key, ?_⟩
      intro s hs
      simp only [List.cons_append, List.nil_append, List.mem_cons] at hs
      rcases hs with rfl | rfl | hs
      · exact n1
      · exact n2
      · exact i2 s hs

theorem fine_terms {q : Query} {f : String} (hf : Word f.toList) : ∀ {ts : List Term},
    (∀ t ∈ ts, Word t.name ∧ ∀ a ∈ t.action, Word a.toList) → ∀ m ∈ (checkTerms q f ts).1, Fine m
  | [], _ => by rw [checkTerms]; nofun
  | t :: ts, h => by
    intro m hm
    rw [checkTerms] at hm
    have ih := fine_terms (q := q) hf (ts := ts) fun x hx => h x (by simp [hx])
    split at hm
    · exact ih m hm
    next ha =>
      have hne : t.action ≠ [] := by
        intro e
        apply ha
        simp [admits, e]
      have hfine : Fine (mkMatch f t (possibleMatch t)) := by
        obtain ⟨h1, h2⟩ := h t (by simp)
        refine ⟨hf, h1, ?_, possible_conds t⟩
        show Word (t.action.headD "").toList
        cases e : t.action with
        | nil => exact absurd e hne
        | cons x xs => exact h2 x (by simp [e])
      simp only at hm
      split at hm
      · rcases List.mem_cons.1 hm with rfl | hm
        · exact hfine
        · exact ih m hm
      · rw [List.mem_singleton.1 hm]
        exact hfine

theorem fine_check {q : Query} : ∀ {fs : List (Header × List Term)} {r : List Match × List Match}, check q fs = .ok r →
    (∀ x ∈ fs, (∀ o ∈ (x.1.target.head?.map Prod.snd).getD [], Word o.toList) ∧
      ∀ t ∈ x.2, Word t.name ∧ ∀ a ∈ t.action, Word a.toList) → ∀ m ∈ r.1, Fine m
  | [], r, h, _ => by cases h; nofun
  | (hd, ts) :: fs, r, h, hw => by
    rw [check] at h
    obtain ⟨n, h1, h⟩ := bind_ok h
    obtain ⟨r', h2, h⟩ := bind_ok h
    cases h
    intro m hm
    obtain ⟨w1, w2⟩ := hw (hd, ts) (by simp)
    rcases List.mem_append.1 hm with hm | hm
    · refine fine_terms ?_ w2 m hm
      unfold filterName at h1
      split at h1
      next p o l rest e =>
        cases h1
        exact w1 _ (by simp [e])
      next => cases h1
    · exact fine_check h2 (fun x hx => hw x (by simp [hx])) m hm

theorem read_sentence {m : Match} (h : Fine m) : readSentence (sentence m) = some (told m) ∧ '\n' ∉ sentence m := by
  have no : ∀ {a b : Str}, '\n' ∉ a → '\n' ∉ b → '\n' ∉ a ++ b := fun ha hb hm => (List.mem_append.1 hm).elim ha hb
  have mid : ∀ r : Str, cut ' ' (m.action.toList ++ (" in term ".toList ++ (m.term ++ (" of filter ".toList ++ (m.filter.toList ++ r))))) =
      [m.action.toList, "in".toList, "term".toList, m.term, "of".toList, "filter".toList] ++ cut ' ' (m.filter.toList ++ r) := by
    intro r
    have : m.action.toList ++ (" in term ".toList ++ (m.term ++ (" of filter ".toList ++ (m.filter.toList ++ r)))) =
      m.action.toList ++ ' ' :: ("in".toList ++ ' ' :: ("term".toList ++ ' ' :: (m.term ++ ' ' :: ("of".toList ++ ' ' ::
        ("filter".toList ++ ' ' :: (m.filter.toList ++ r)))))) := rfl
    rw [this, cut_append, cut_append, cut_append, cut_append, cut_append, cut_append, cut_none h.action.2.1, cut_none h.term.2.1]
    rfl
  unfold sentence told
  cases hp : m.possibles with
  | nil =>
    simp only [List.isEmpty_nil, if_true, List.append_nil]
    refine ⟨?_, no h.action.2.2 (no (by decide +kernel) (no h.term.2.2 (no (by decide +kernel) h.filter.2.2)))⟩
    have := mid []
    rw [List.append_nil, cut_none h.filter.2.1] at this
    unfold readSentence
    rw [this]
    simp only [List.cons_append, List.nil_append]
    rw [if_pos trivial]
    rfl
  | cons p ps =>
    have hc := h.possibles
    rw [hp] at hc
    have hn := (cond_nl _ hc).2
    simp only [List.isEmpty_cons, Bool.false_eq_true, if_false]
    refine ⟨?_, no (no (no (by decide +kernel) h.action.2.2) (no (by decide +kernel) (no h.term.2.2 (no (by decide +kernel) h.filter.2.2))))
      (no (by decide +kernel) hn)⟩
    have key : cut ' ' ("possible ".toList ++ m.action.toList ++ (" in term ".toList ++ (m.term ++ (" of filter ".toList ++ m.filter.toList))) ++
        (" with factors: ".toList ++ joinComma ((p :: ps).map String.toList))) =
        ["possible".toList, m.action.toList, "in".toList, "term".toList, m.term, "of".toList, "filter".toList, m.filter.toList, "with".toList,
          "factors:".toList] ++ cut ' ' (joinComma ((p :: ps).map String.toList)) := by
      generalize joinComma ((p :: ps).map String.toList) = j
      have e : "possible ".toList ++ m.action.toList ++ (" in term ".toList ++ (m.term ++ (" of filter ".toList ++ m.filter.toList))) ++
        (" with factors: ".toList ++ j) = "possible".toList ++ ' ' :: (m.action.toList ++ (" in term ".toList ++ (m.term ++ (" of filter ".toList ++ (m.filter.toList ++ (" with factors: ".toList ++ j)))))) := by
        have : "possible ".toList = "possible".toList ++ [' '] := rfl
        rw [this]
        simp only [List.append_assoc, List.cons_append, List.nil_append]
      have e' : m.filter.toList ++ (" with factors: ".toList ++ j) = m.filter.toList ++ ' ' :: ("with".toList ++ ' ' :: ("factors:".toList ++ ' ' :: j)) := rfl
      rw [e, cut_append, mid, e', cut_append, cut_append, cut_append, cut_none h.filter.2.1]
      rfl
    unfold readSentence
    rw [key]
    simp only [List.cons_append, List.nil_append]
    rw [if_pos trivial, cond_join _ hc (by simp)]

theorem each_sentence : ∀ {ms : List Match}, (∀ m ∈ ms, Fine m) → eachOne readSentence (ms.map sentence) = some (ms.map told)
  | [], _ => rfl
  | m :: ms, h => by
    rw [List.map_cons, eachOne, (read_sentence (h m (by simp))).1, each_sentence fun k hk => h k (by simp [hk])]
    rfl

end AclReportL
open AclReportL

/-- **C182**, the report: whoever reads it gets exactly the matches, in order, each with its filter, term, action and conditions. All names are
words, as in every policy that is read from a text, see C107. -/
theorem C182_report {q : Query} {fs : List (Header × List Term)} {ms exact : List Match} (h : check q fs = .ok (ms, exact))
    (hw : ∀ x ∈ fs, (∀ o ∈ (x.1.target.head?.map Prod.snd).getD [], Word o.toList) ∧
      ∀ t ∈ x.2, Word t.name ∧ ∀ a ∈ t.action, Word a.toList) :
    readReport (report ms) = some (ms.map fun m => ⟨m.filter.toList, m.term, m.action.toList, m.possibles.map String.toList⟩) := by
  have hf := fine_check h hw
  simp only at hf
  unfold readReport report
  obtain ⟨h1, h2⟩ := report_lines "" hf
  cases ms with
  | nil => rfl
  | cons m ms =>
    have hne : reportLines "" (m :: ms) ≠ [] := by
      obtain ⟨l, a, e, _⟩ := match_lines (hf m (by simp))
      rw [reportLines, e, List.cons_append]
      exact fun h => List.cons_ne_nil _ _ (List.append_eq_nil_iff.1 h).2
    have hc := cut_join hne h2
    rw [if_neg, hc]
    · exact h1
    · intro e
      rw [e] at hc
      rw [← hc, show readLines "".toList (cut '\n' []) = none by decide +kernel] at h1
      cases h1

/-- **C182**, the sentences. -/
theorem C182_sentences {q : Query} {fs : List (Header × List Term)} {ms exact : List Match} (h : check q fs = .ok (ms, exact))
    (hw : ∀ x ∈ fs, (∀ o ∈ (x.1.target.head?.map Prod.snd).getD [], Word o.toList) ∧
      ∀ t ∈ x.2, Word t.name ∧ ∀ a ∈ t.action, Word a.toList) :
    readSentences (describeMatches ms) =
      some (ms.map fun m => ⟨m.filter.toList, m.term, m.action.toList, m.possibles.map String.toList⟩) := by
  have hf := fine_check h hw
  simp only at hf
  have h1 := each_sentence hf
  unfold readSentences describeMatches
  cases ms with
  | nil => rfl
  | cons m ms =>
    have hc := cut_join (l := (m :: ms).map sentence) (by simp) (by
      intro s hs
      obtain ⟨k, hk, rfl⟩ := List.mem_map.1 hs
      exact (read_sentence (hf k hk)).2)
    rw [if_neg, hc]
    · exact h1
    · intro e
      rw [e] at hc
      rw [← hc, show eachOne readSentence (cut '\n' []) = none by decide +kernel] at h1
      cases h1

/-- A policy of two filters for the examples. -/
def reportPolicy : List (Header × List Term) :=
  [({ target := [("cisco", ["edge"])] }, [{ name := "est".toList, action := ["accept"], protocol := ["tcp"], option := ["established", "tcp-established"] },
      { name := "web".toList, action := ["accept"] }]),
   ({ target := [("cisco", ["core"])] }, [{ name := "rest".toList, action := ["deny"] }])]

instance (s : Str) : Decidable (Word s) := inferInstanceAs (Decidable (_ ∧ _ ∧ _))

/-- The hypotheses of C182. -/
example : (∃ ms exact, check {} reportPolicy = .ok (ms, exact) ∧ ms.length = 3 ∧
      report ms = ("  filter: edge\n          term: est (possible match)\n                accept if ['est', 'tcp-est']\n          term: web\n" ++
        "                accept\n  filter: core\n          term: rest\n                deny").toList) ∧
    ∀ x ∈ reportPolicy, (∀ o ∈ (x.1.target.head?.map Prod.snd).getD [], Word o.toList) ∧
      ∀ t ∈ x.2, Word t.name ∧ ∀ a ∈ t.action, Word a.toList :=
  ⟨⟨_, _, rfl, by decide +kernel, by decide +kernel⟩, by decide +kernel⟩

end Verif.Props
