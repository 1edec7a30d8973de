import Verif.Props.PolicyText

/-!
Concrete cases for C102 to C107, and the texts for which C103, C104, C105, C106 and C107 fail.
-/

namespace Verif.Props
open Verif Verif.Spec Verif.PolicyText Policy

/-- No definitions, no literal addresses. -/
def noDefs : Env := { nets := [], svcs := [], ip := fun _ => none }

/-- No includes. -/
def noFiles : Include.Files := { cwd := "/".toList, base := "policies".toList, read := fun _ => .error (.raised "FileNotFoundError") }

/-- What a test looks at in a term. -/
structure TermOutline where
  name : Str
  protocol : List String
  action : List String
  precedence : List String := []
deriving DecidableEq

/-- What a test looks at in a filter. -/
structure FilterOutline where
  target : List (String × List String)
  terms : List TermOutline
deriving DecidableEq

/-- The outlines of a policy. -/
def outline (r : Except Err (List (Header × List Term))) : Option (List FilterOutline) :=
  match r with
  | .ok p => some (p.map fun f => ⟨f.1.target, f.2.map fun t => ⟨t.name, t.protocol, t.action, t.precedence⟩⟩)
  | .error _ => none

def plainText : String := "header { target:: juniper demo }
term t { protocol:: tcp udp
 action:: accept }"

def otherOrder : String := "# the same
header{target::juniper demo}term t{action::accept
protocol::tcp udp}#end"

/-- A name that is one word, by evaluation. -/
theorem spells_word {w s : Str} {ts : List Tok}
    (h : (nameB w && !(reserved.map String.toList).contains w && (rangeLen w).isNone && (dscpLen w).isNone &&
      w != "hex".toList && (match s with | c :: _ => !isName c | [] => true)) = true)
    (r : Spells s ts) : Spells (w ++ s) (.word w :: ts) := by
  simp only [Bool.and_eq_true, Bool.not_eq_true', bne_iff_ne, Option.isNone_iff_eq_none] at h
  have hn := (nameB_iff w).1 h.1.1.1.1.1
  refine .word hn (looks_len (name_chars hn) h.1.1.1.2 h.1.1.2) ?_ h.1.2 ?_ r
  · rw [← reserved_iff, h.1.1.1.1.2]; decide
  · intro c r hs hh
    have := h.2
    rw [hs] at this
    dsimp only at this
    rw [(name_iff c).2 hh] at this
    cases this

/-- A keyword, by evaluation. -/
theorem spells_key {w s : Str} {ts : List Tok}
    (h : ((reserved.map String.toList).contains w && (match s with | c :: _ => !isName c | [] => true)) = true)
    (r : Spells s ts) : Spells (w ++ s) (.key w :: ts) := by
  simp only [Bool.and_eq_true] at h
  refine .key ((reserved_iff w).1 h.1) ?_ r
  intro c r hs hh
  have := h.2
  rw [hs] at this
  dsimp only at this
  rw [(name_iff c).2 hh] at this
  cases this

-- C102: two layouts of the same items.
example : readPolicy noDefs "term t{protocol::tcp\nudp}".toList =
    readPolicy noDefs "term\tt { # which\n protocol :: tcp udp } ".toList := by
  refine C102_layout _
    (ts := [.key "term".toList, .word "t".toList, .sign '{', .key "protocol".toList, .sign ':', .sign ':',
      .word "tcp".toList, .word "udp".toList, .sign '}']) ?_ ?_
  · exact spells_key (w := "term".toList) (by decide) (.blank (.inl rfl) (spells_word (w := "t".toList) (by decide)
      (.sign (by decide) (spells_key (w := "protocol".toList) (by decide) (.sign (by decide) (.sign (by decide)
      (spells_word (w := "tcp".toList) (by decide) (.blank (.inr (.inr rfl)) (spells_word (w := "udp".toList) (by decide)
      (.sign (by decide) .nil))))))))))
  · exact spells_key (w := "term".toList) (by decide) (.blank (.inr (.inl rfl)) (spells_word (w := "t".toList) (by decide)
      (.blank (.inl rfl) (.sign (by decide) (.blank (.inl rfl)
      (.note (body := " which".toList) (by decide) (.inr ⟨_, rfl⟩) (.blank (.inr (.inr rfl)) (.blank (.inl rfl)
      (spells_key (w := "protocol".toList) (by decide) (.blank (.inl rfl) (.sign (by decide) (.sign (by decide)
      (.blank (.inl rfl) (spells_word (w := "tcp".toList) (by decide) (.blank (.inl rfl)
      (spells_word (w := "udp".toList) (by decide) (.blank (.inl rfl) (.sign (by decide)
      (.blank (.inl rfl) .nil)))))))))))))))))))

/-- The filters of `plainText`. -/
def plainFilters : List RawFilter :=
  [⟨[⟨"target".toList, .words ["juniper".toList, "demo".toList]⟩],
    [⟨"t".toList, [⟨"protocol".toList, .words ["tcp".toList, "udp".toList]⟩, ⟨"action".toList, .text "accept".toList⟩]⟩]⟩]

-- C103: a text that is read, and one that is not.
example : PolicyIs plainFilters (tokens plainText.toList) := (C103_grammar _ _).1 (by decide +kernel)
example : ¬ ∃ fs, PolicyIs fs (tokens "header { target:: juniper } term { action:: accept }".toList) := by
  rintro ⟨fs, h⟩
  have e : parse (tokens "header { target:: juniper } term { action:: accept }".toList) = .error parseError := by
    decide +kernel
  rw [(C103_grammar _ _).2 h] at e
  cases e

/-- Two items with different keywords in the other order. -/
theorem same_swap {i j : Item} (h : i.key ≠ j.key) : SameItems [i, j] [j, i] := by
  intro k
  unfold given
  by_cases h1 : i.key = k.toList
  · have h2 : ¬ j.key = k.toList := by rw [← h1]; exact Ne.symm h
    simp [h1, h2]
  · by_cases h2 : j.key = k.toList <;> simp [h1, h2]

-- C104: what the term says, and another order of its keywords.
example : outline (readPolicy noDefs plainText.toList) =
    some [⟨[("juniper", ["demo"])], [⟨"t".toList, ["tcp", "udp"], ["accept"], []⟩]⟩] := by decide +kernel
example : outline (readPolicy noDefs otherOrder.toList) = outline (readPolicy noDefs plainText.toList) := by
  decide +kernel
example : SameFilters plainFilters
    [⟨[⟨"target".toList, .words ["juniper".toList, "demo".toList]⟩],
      [⟨"t".toList, [⟨"action".toList, .text "accept".toList⟩, ⟨"protocol".toList, .words ["tcp".toList, "udp".toList]⟩]⟩]⟩] := by
  refine .cons rfl (fun i a b => ?_) .nil
  have : i = 0 := by simp at a; omega
  subst this
  exact ⟨rfl, same_swap (by decide)⟩
example : Valued ⟨"action".toList, .text "accept".toList⟩ ∧ ¬ Valued ⟨"action".toList, .text "drop".toList⟩ :=
  ⟨⟨fun _ s hs => (by cases hs; decide), fun h => absurd h (by decide)⟩,
   fun h => absurd (h.1 rfl _ rfl) (by decide)⟩

-- C105: all characters are legal.
example : (∀ c, Ev.illegal c ∉ lex plainText.toList) ∧ ∃ p, readPolicy noDefs plainText.toList = .ok p := by
  have e : (lex plainText.toList).all (fun | .illegal _ => false | .tok _ => true) = true := by decide +kernel
  refine ⟨fun c hc => ?_, ?_⟩
  · have := List.all_eq_true.1 e _ hc
    cases this
  · have : (outline (readPolicy noDefs plainText.toList)).isSome = true := by decide +kernel
    cases h : readPolicy noDefs plainText.toList with
    | error x => rw [h] at this; cases this
    | ok p => exact ⟨p, rfl⟩

-- C106: a text with quotes in the middle.
example : pairsGiven "verbatim" [⟨"verbatim".toList, .pair "juniper".toList "\"say \\\"hi\\\" now\"".toList⟩] =
    [("juniper".toList, "say \"hi\" now".toList)].map (fun p => (p.1, '"' :: (escapeQuotes p.2 ++ ['"']))) ∧
    '\\' ∉ "say \"hi\" now".toList ∧ "say \"hi\" now".toList.getLast? ≠ some '"' := by decide +kernel

-- C107: a name with all that a name may have.
example : tokens "WEB_srv-1.eu@x/y }".toList = [.word "WEB_srv-1.eu@x/y".toList, .sign '}'] :=
  C107_names_partial (w := "WEB_srv-1.eu@x/y".toList) (s := " }".toList) ((nameB_iff _).1 (by decide))
    (looks_len (name_chars ((nameB_iff _).1 (by decide))) (by decide) (by decide))
    (by rw [← reserved_iff]; decide) (by decide)
    (by intro c r h; cases h; decide) (.blank (.inl rfl) (.sign (by decide) .nil))

/-! ### refutations -/

/-- The results are `False`. -/
def isFalse (r : Except Err (Option (List (Header × List Term)))) : Bool :=
  match r with
  | .ok none => true
  | _ => false

/-- C103 fails in one way: there are texts, not policies, for which no error is raised and the result is
`False`. -/
theorem C103_refuted_false :
    parsePolicy noFiles noDefs "header { target:: juniper demo }\nterm t { flexible-match-range:: }".toList = .ok none ∧
    parsePolicy noFiles noDefs
      "header { target:: gcp_hf demo }\nterm t { target-resources:: (proj, vpc), action:: next }".toList = .ok none := by
  have key : ∀ r, isFalse r = true → r = .ok none := by
    intro r h
    unfold isFalse at h
    split at h
    · rfl
    · cases h
  exact ⟨key _ (by decide +kernel), key _ (by decide +kernel)⟩

/-- The error, if there is one. -/
def errorOf {α : Type} (r : Except Err α) : Option Err :=
  match r with
  | .error e => some e
  | .ok _ => none

/-- C103 fails in another way: a text without a header and a term without content are no `ParseError`. -/
theorem C103_refuted_attribute :
    readPolicy noDefs "# nothing yet".toList = .error .attributeError ∧
    readPolicy noDefs "header { target:: juniper demo }\nterm t { }".toList = .error .attributeError := by
  have key : ∀ r : Except Err (List (Header × List Term)), errorOf r = some .attributeError → r = .error .attributeError := by
    intro r h
    cases r with
    | ok p => cases h
    | error e => cases h; rfl
  exact ⟨key _ (by decide +kernel), key _ (by decide +kernel)⟩

/-- C104 fails for keywords with one value: of several only the last counts, without a complaint. -/
theorem C104_refuted_repeated :
    outline (readPolicy noDefs
      "header { target:: juniper demo }\nterm t { precedence:: 1\n precedence:: 2\n protocol:: tcp\n protocol:: udp action:: accept }".toList) =
    some [⟨[("juniper", ["demo"])], [⟨"t".toList, ["tcp", "udp"], ["accept"], ["2"]⟩]⟩] := by decide +kernel

/-- C105 fails: a character that is no part of the language is left out, and the policy is read without it. -/
theorem C105_refuted_illegal :
    Ev.illegal '!' ∈ lex "header { target:: juniper demo }\nterm t { protocol:: !tcp action:: accept }".toList ∧
    outline (readPolicy noDefs "header { target:: juniper demo }\nterm t { protocol:: !tcp action:: accept }".toList) =
    some [⟨[("juniper", ["demo"])], [⟨"t".toList, ["tcp"], ["accept"], []⟩]⟩] := by
  refine ⟨?_, by decide +kernel⟩
  have : (lex "header { target:: juniper demo }\nterm t { protocol:: !tcp action:: accept }".toList).contains (.illegal '!') = true := by
    decide +kernel
  simpa using this

/-- The verbatim texts of the terms. -/
def verbatims (r : Except Err (List (Header × List Term))) : Option (List (List (List (String × String)))) :=
  match r with
  | .ok p => some (p.map fun f => f.2.map fun t => t.verbatim)
  | .error _ => none

/-- C106 fails for a text that ends with a quote: the quote is lost and a backslash is left. -/
theorem C106_refuted_quote :
    verbatims (readPolicy noDefs
      "header { target:: juniper demo }\nterm t { verbatim:: juniper \"say \\\"hi\\\"\" }".toList) =
    some [[[("juniper", "say \"hi\\")]]] := by decide +kernel

/-- C107 fails for a name that starts with the name of a DSCP class before a `.`, and for `hex`. -/
theorem C107_refuted_names :
    WrittenName "ef.example".toList ∧ tokens "ef.example".toList ≠ [.word "ef.example".toList] ∧
    WrittenName "hex".toList ∧ tokens "hex".toList = [.hex "hex".toList] ∧
    WrittenName "port".toList ∧ tokens "port".toList = [.key "port".toList] :=
  ⟨(nameB_iff _).1 (by decide), by decide +kernel, (nameB_iff _).1 (by decide), by decide +kernel,
   (nameB_iff _).1 (by decide), by decide +kernel⟩

end Verif.Props
