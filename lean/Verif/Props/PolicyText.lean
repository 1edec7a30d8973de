import Verif.Lemmas.PolicyBuild
import Verif.Lemmas.PolicyReads
import Verif.Props.Include

/-!
Property theorems C102 to C107: the texts of policies, capirca/lib/policy.py.
-/

namespace Verif.Props
open Verif Verif.Spec Verif.PolicyText Policy

/-! ### layout -/

/-- C102: a text is read as the tokens it spells, with no complaint. -/
theorem C102_tokens {s : Str} {ts : List Tok} (h : Spells s ts) : lex s = ts.map .tok ∧ tokens s = ts := by
  have := spells_lex h false (by intro hh; cases hh)
  refine ⟨this, ?_⟩
  unfold tokens lex
  rw [this, List.filterMap_map]
  exact List.filterMap_some

/-- C102: texts that spell the same tokens, with whatever blanks, line breaks and comments, give the same policy
or the same error. -/
theorem C102_layout (e : Env) {s s' : Str} {ts : List Tok} (h : Spells s ts) (h' : Spells s' ts) :
    readPolicy e s = readPolicy e s' := by
  unfold readPolicy
  rw [(C102_tokens h).2, (C102_tokens h').2]

/-- C102: the same for files with includes: what counts is the tokens the expanded texts spell. -/
theorem C102_files {fs : Include.Files} (hc : fs.cwd.head? = some '/') (e : Env) {d d' : Str} {l l' : List Str} {ts : List Tok}
    (hd : Expands fs 4 (Include.dataLines d) l) (hd' : Expands fs 4 (Include.dataLines d') l')
    (h : Spells (['\n'].intercalate l) ts) (h' : Spells (['\n'].intercalate l') ts) :
    parsePolicy fs e d = parsePolicy fs e d' := by
  unfold parsePolicy
  rw [(C29_expansion hc 4 d l).2 hd, (C29_expansion hc 4 d' l').2 hd']
  dsimp only
  rw [C102_layout e h h']

/-! ### grammar -/

/-- C103: a text gives filters exactly if its tokens are those of the filters. -/
theorem C103_grammar (ts : List Tok) (fs : List RawFilter) : parse ts = .ok fs ↔ PolicyIs fs ts := parse_iff ts fs

/-- C103: tokens are those of one list of filters at most. -/
theorem C103_unique {ts : List Tok} {fs fs' : List RawFilter} (h : PolicyIs fs ts) (h' : PolicyIs fs' ts) : fs = fs' := by
  have := (C103_grammar _ _).2 h
  rw [(C103_grammar _ _).2 h'] at this
  cases this
  rfl

/-! ### terms -/

/-- C104: a policy that is read has the targets and terms written, each term with what its items say. -/
theorem C104_says {e : Env} {s : Str} {p} (h : readPolicy e s = .ok p) :
    ∃ fs raw, PolicyIs fs (tokens s) ∧ fs ≠ [] ∧ raw.length = fs.length ∧
      (∀ i (a : i < fs.length) (b : i < raw.length), SaysFilter fs[i] raw[i]) ∧ buildPolicy e raw = .ok p := by
  rcases (read_ok e s p).1 h with ⟨fs, l, h1, h2, h3, h4⟩
  have := listM_get h3
  exact ⟨fs, l, h1, h2, this.1, fun i a b => buildFilter_says (this.2 i a b), h4⟩

/-- C104: a term can be built exactly if its actions and logging have known values. -/
theorem C104_values (t : RawItems) : (∃ r, buildTerm t = .ok r) ↔ ∀ i ∈ t.items, Valued i :=
  ⟨fun ⟨_, h⟩ => (buildTerm_ok h).1, fun h => ⟨_, buildTerm_eq h⟩⟩

/-- C104: then it says what is written. -/
theorem C104_term {t : RawItems} {r : RawTerm} (h : buildTerm t = .ok r) : SaysTerm t.name t.items r := buildTerm_says h

/-- C104: the order in which different keywords are written makes no difference to a policy. -/
theorem C104_order {e : Env} {s s' : Str} {fs fs' : List RawFilter} (h : PolicyIs fs (tokens s))
    (h' : PolicyIs fs' (tokens s')) (hh : SameFilters fs fs') (p) : readPolicy e s = .ok p ↔ readPolicy e s' = .ok p :=
  read_same h h' hh p

/-! ### nothing is left out -/

/-- C105: every text is made of the tokens read and the characters complained about, in this order, blanks, line
breaks and comments. -/
theorem C105_reads (s : Str) : Reads s (lex s) := lex_reads s

/-- C105 (partial: only for texts without illegal characters, which are left out with a message): a policy that is
read is made of all that is written but blanks, line breaks and comments. -/
theorem C105_complete_partial {e : Env} {s : Str} {p} (h : readPolicy e s = .ok p) (hi : ∀ c, Ev.illegal c ∉ lex s) :
    ∃ fs ts, Reads s (ts.map .tok) ∧ PolicyIs fs ts := by
  rcases (read_ok e s p).1 h with ⟨fs, l, h1, _⟩
  refine ⟨fs, tokens s, ?_, h1⟩
  have : (tokens s).map .tok = lex s := by
    unfold tokens
    generalize lex s = es at hi
    induction es with
    | nil => rfl
    | cons ev es ih =>
      cases ev with
      | tok t => simp only [List.filterMap_cons, List.map_cons, ih fun c hc => hi c (by simp [hc])]
      | illegal c => exact absurd (by simp) (hi c)
  rw [this]
  exact lex_reads s

/-! ### verbatim -/

/-- C106 (partial: not for texts with a backslash or with a quote at the end): texts written in quotes, with their
quotes escaped, are the texts of the term. -/
theorem C106_verbatim_partial {t : RawItems} {r : RawTerm} (h : buildTerm t = .ok r) {l : List (Str × Str)}
    (hl : pairsGiven "verbatim" t.items = l.map fun p => (p.1, '"' :: (escapeQuotes p.2 ++ ['"'])))
    (hb : ∀ p ∈ l, '\\' ∉ p.2 ∧ p.2.getLast? ≠ some '"') :
    r.rest.verbatim = l.map fun p => (String.ofList p.1, String.ofList p.2) := by
  rw [(buildTerm_ok h).2]
  show (pairs _).map _ = _
  have := pairs_given (k := "verbatim") (by decide) t.items
  rw [this, hl, List.map_map]
  apply List.map_congr_left
  intro p hp
  have hv := verbatim_read (hb p hp).1 (hb p hp).2
  simp only [Function.comp]
  rw [List.cons_append] at hv
  rw [hv]

/-- C106: such a text in quotes is one token. -/
theorem C106_written {v s : Str} {ts : List Tok} (hb : '\\' ∉ v) (h : Spells s ts) :
    ∃ t, spelled t = '"' :: (escapeQuotes v ++ ['"']) ∧ (∃ x, t = .quoted x ∨ t = .escaped x) ∧
      Spells ('"' :: (escapeQuotes v ++ '"' :: s)) (t :: ts) := by
  have body : ∀ {v : Str}, '\\' ∉ v → EscBody (escapeQuotes v) := by
    intro v
    induction v with
    | nil => exact fun _ => .nil
    | cons c v ih =>
      intro hb
      have hc : c ≠ '\\' := fun hh => hb (by simp [hh])
      have ih := ih fun hh => hb (by simp [hh])
      have e : escapeQuotes (c :: v) = (if c = '"' then ['\\', '"'] else [c]) ++ escapeQuotes v := rfl
      rw [e]
      split
      · exact .quote ih
      · rename_i hq
        exact .char hq hc ih
  rcases Classical.em ('"' ∈ v) with hq | hq
  · refine ⟨_, rfl, ⟨_, .inr rfl⟩, .escaped (body hb) ?_ h⟩
    unfold escapeQuotes
    exact List.mem_flatMap.2 ⟨'"', hq, by decide⟩
  · have e : escapeQuotes v = v := by
      clear h hb
      induction v with
      | nil => rfl
      | cons c v ih =>
        have e : escapeQuotes (c :: v) = (if c = '"' then ['\\', '"'] else [c]) ++ escapeQuotes v := rfl
        rw [e, if_neg (fun hh => hq (by simp [hh])), ih fun hh => hq (by simp [hh])]
        rfl
    rw [e]
    refine ⟨_, rfl, ⟨_, .inl rfl⟩, .quoted hq ?_ h⟩
    rintro b rfl
    exact hb (by simp)

/-! ### names -/

/-- C107 (partial: not for reserved words, `hex` and names that start like a DSCP class): a name is one word. -/
theorem C107_names_partial {w s : Str} {ts : List Tok} (h : WrittenName w) (hd : ¬ LooksDscp w) (hk : ¬ IsKeyword w)
    (hx : w ≠ "hex".toList) (he : Ends NameChar s) (hs : Spells s ts) : tokens (w ++ s) = .word w :: ts :=
  (C102_tokens (.word h hd hk hx he hs)).2

end Verif.Props
