import Verif.Model.VersaTree
import Verif.Spec.VersaText
import Verif.Lemmas.Wrap

/-!
Reading the text of a Versa configuration.
-/

namespace Verif.Lemmas.VersaTreeL
open Verif Verif.Versa
open Verif.Spec.VersaText

/-! ### parsing -/

mutual

/-- The words of an item. -/
def tokItem : Item → List Tok
  | .stmt ws => ws.map .word ++ [.semi]
  | .block h is => h.map .word ++ .opn :: (tokItems is ++ [.cls])

/-- The words of items. -/
def tokItems : List Item → List Tok
  | [] => []
  | i :: is => tokItem i ++ tokItems is

end

theorem tokItems_append : ∀ a b : List Item, tokItems (a ++ b) = tokItems a ++ tokItems b
  | [], b => by simp [tokItems]
  | i :: a, b => by rw [List.cons_append, tokItems, tokItems, tokItems_append a b, List.append_assoc]

theorem parse_words (st : List (List Str × List Item)) (cur : List Item) (ts : List Tok) : ∀ vs ws : List Str,
    parse st cur ws (vs.map .word ++ ts) = parse st cur (ws ++ vs) ts
  | [], ws => by simp
  | v :: vs, ws => by
    rw [List.map_cons, List.cons_append, parse, parse_words st cur ts vs]
    simp

theorem parse_semi (st : List (List Str × List Item)) (cur : List Item) (ws : List Str) (ts : List Tok) :
    parse st cur ws (.semi :: ts) = parse st (cur ++ [.stmt ws]) [] ts := by rw [parse]

theorem parse_opn (st : List (List Str × List Item)) (cur : List Item) (ws : List Str) (ts : List Tok) :
    parse st cur ws (.opn :: ts) = parse ((ws, cur) :: st) [] [] ts := by rw [parse]

theorem parse_cls (st : List (List Str × List Item)) (h : List Str) (before cur : List Item) (ts : List Tok) :
    parse ((h, before) :: st) cur [] (.cls :: ts) = parse st (before ++ [.block h cur]) [] ts := by rw [parse]

mutual

theorem parse_item : ∀ (i : Item) (st : List (List Str × List Item)) (cur : List Item) (ts : List Tok),
    parse st cur [] (tokItem i ++ ts) = parse st (cur ++ [i]) [] ts
  | .stmt ws, st, cur, ts => by
    rw [tokItem, List.append_assoc, parse_words, List.singleton_append, parse_semi]
    rfl
  | .block h is, st, cur, ts => by
    rw [tokItem, List.append_assoc, parse_words, List.cons_append, parse_opn, List.append_assoc, parse_items is]
    rw [List.singleton_append, parse_cls]
    rfl

theorem parse_items : ∀ (is : List Item) (st : List (List Str × List Item)) (cur : List Item) (ts : List Tok),
    parse st cur [] (tokItems is ++ ts) = parse st (cur ++ is) [] ts
  | [], st, cur, ts => by simp [tokItems]
  | i :: is, st, cur, ts => by
    rw [tokItems, List.append_assoc, parse_item i, parse_items is]
    simp

end

theorem parse_all (is : List Item) : parse [] [] [] (tokItems is) = some is := by
  have := parse_items is [] [] []
  rw [List.append_nil] at this
  rw [this, List.nil_append, parse]

/-! ### characters -/

/-- The rest of the text does not go on with the word. -/
def Delim (r : Str) : Prop := r = [] ∨ ∃ c s, r = c :: s ∧ (Gap c ∨ c = '{' ∨ c = '}' ∨ c = ';')

theorem delim_sp (r : Str) : Delim (' ' :: r) := .inr ⟨_, _, rfl, .inl (.inl rfl)⟩
theorem delim_nl (r : Str) : Delim ('\n' :: r) := .inr ⟨_, _, rfl, .inl (.inr (.inl rfl))⟩
theorem delim_semi (r : Str) : Delim (';' :: r) := .inr ⟨_, _, rfl, .inr (.inr (.inr rfl))⟩

theorem lex_char {w : Str} {c : Char} {s : Str} (h : c ≠ '/') : lex (.out w) (c :: s) =
    if c = '"' then flush w ++ lex (.quote []) s
    else if c = '{' then flush w ++ .opn :: lex (.out []) s
    else if c = '}' then flush w ++ .cls :: lex (.out []) s
    else if c = ';' then flush w ++ .semi :: lex (.out []) s
    else if Gap c then flush w ++ lex (.out []) s
    else lex (.out (w ++ [c])) s := by
  rw [lex]
  rintro s' rfl
  exact absurd rfl h

theorem lex_slash {w : Str} {s : Str} (h : s.head? ≠ some '*') : lex (.out w) ('/' :: s) = lex (.out (w ++ ['/'])) s := by
  rw [lex]
  · rw [if_neg (by decide), if_neg (by decide), if_neg (by decide), if_neg (by decide), if_neg (by decide)]
  · rintro s' _ rfl
    exact h rfl

theorem lex_sp (s : Str) : lex (.out []) (' ' :: s) = lex (.out []) s := by
  rw [lex_char (by decide)]
  rfl

theorem lex_nl (s : Str) : lex (.out []) ('\n' :: s) = lex (.out []) s := by
  rw [lex_char (by decide)]
  rfl

theorem lex_semi (s : Str) : lex (.out []) (';' :: s) = .semi :: lex (.out []) s := by
  rw [lex_char (by decide)]
  rfl

theorem lex_opn (s : Str) : lex (.out []) ('{' :: s) = .opn :: lex (.out []) s := by
  rw [lex_char (by decide)]
  rfl

theorem lex_cls (s : Str) : lex (.out []) ('}' :: s) = .cls :: lex (.out []) s := by
  rw [lex_char (by decide)]
  rfl

theorem lex_spaces (s : Str) : ∀ k : Nat, lex (.out []) (List.replicate k ' ' ++ s) = lex (.out []) s
  | 0 => rfl
  | k + 1 => by rw [List.replicate_succ, List.cons_append, lex_sp, lex_spaces s k]

theorem delim_flush {w r : Str} (hw : w ≠ []) (hr : Delim r) : lex (.out w) r = .word w :: lex (.out []) r := by
  have hf : flush w = [.word w] := by unfold flush; rw [if_neg hw]
  rcases hr with rfl | ⟨c, s, rfl, hc⟩
  · rw [lex, lex, hf]; rfl
  · have h1 : c ≠ '/' := by
      rintro rfl
      revert hc
      decide
    have h2 : c ≠ '"' := by
      rintro rfl
      revert hc
      decide
    rw [lex_char h1, lex_char h1, if_neg h2, if_neg h2, hf]
    by_cases e1 : c = '{'
    · rw [if_pos e1, if_pos e1]; rfl
    · rw [if_neg e1, if_neg e1]
      by_cases e2 : c = '}'
      · rw [if_pos e2, if_pos e2]; rfl
      · rw [if_neg e2, if_neg e2]
        by_cases e3 : c = ';'
        · rw [if_pos e3, if_pos e3]; rfl
        · rw [if_neg e3, if_neg e3]
          have : Gap c := by rcases hc with h | h | h | h
                             · exact h
                             · exact absurd h e1
                             · exact absurd h e2
                             · exact absurd h e3
          rw [if_pos this, if_pos this]
          rfl

theorem lex_grow {r : Str} (hr : Delim r) : ∀ {w u : Str}, (∀ c ∈ w, c ≠ '"' ∧ c ≠ '{' ∧ c ≠ '}' ∧ c ≠ ';' ∧ ¬ Gap c) →
    ¬ ['/', '*'] <:+: w → lex (.out u) (w ++ r) = lex (.out (u ++ w)) r
  | [], u, _, _ => by simp
  | c :: w, u, hc, hi => by
    have ih := lex_grow hr (w := w) (u := u ++ [c]) (fun d hd => hc d (by simp [hd])) fun h => hi (List.infix_cons_iff.2 (.inr h))
    have hs : lex (.out u) (c :: (w ++ r)) = lex (.out (u ++ [c])) (w ++ r) := by
      by_cases e : c = '/'
      · subst e
        refine lex_slash fun h => ?_
        cases w with
        | nil =>
          rcases hr with rfl | ⟨d, s, rfl, hd⟩
          · exact nomatch h
          · cases h
            revert hd
            decide
        | cons d w =>
          have : d = '*' := by simpa using h
          subst this
          exact hi ⟨[], w, rfl⟩
      · obtain ⟨h1, h2, h3, h4, h5⟩ := hc c (by simp)
        rw [lex_char e, if_neg h1, if_neg h2, if_neg h3, if_neg h4, if_neg h5]
    rw [List.cons_append, hs, ih]
    simp

theorem lex_word {w r : Str} (hw : Plain w) (hr : Delim r) : lex (.out []) (w ++ r) = .word w :: lex (.out []) r := by
  rw [lex_grow hr hw.2.1 hw.2.2, List.nil_append, delim_flush hw.1 hr]

theorem lex_comment_in : ∀ {s : Str} {r : Str}, Quiet s → s.getLast? ≠ some '*' → lex .comment (s ++ r) = lex .comment r
  | [], _, _, _ => rfl
  | [c], r, _, hl => by
    show lex .comment (c :: r) = _
    rw [lex]
    rintro s' rfl _
    exact hl rfl
  | c :: d :: s, r, hq, hl => by
    have ih := lex_comment_in (s := d :: s) (r := r) (fun h => hq (List.infix_cons_iff.2 (.inr h))) (by simpa using hl)
    show lex .comment (c :: d :: (s ++ r)) = _
    rw [lex]
    · exact ih
    · rintro s' rfl e
      have : d = '/' := by injection e
      subst this
      exact hq ⟨[], s, rfl⟩

theorem lex_comment_end (r : Str) : lex .comment ('*' :: '/' :: r) = lex (.out []) r := by rw [lex]

theorem lex_comment_start (r : Str) : lex (.out []) ('/' :: '*' :: r) = lex .comment r := by rw [lex]; rfl

theorem quiet_pre {c : Char} {s : Str} (hc : c ≠ '*') (h : Quiet s) : Quiet (c :: s) := by
  rintro hi
  rcases List.infix_cons_iff.1 hi with hp | hp
  · obtain ⟨t, ht⟩ := hp
    injection ht with h1 _
    exact hc h1.symm
  · exact h hp

theorem quiet_post : ∀ {s : Str}, Quiet s → Quiet (s ++ [' '])
  | [], _ => by unfold Quiet; decide
  | [c], _ => by
    rintro hi
    rcases List.infix_cons_iff.1 hi with ⟨t, ht⟩ | hp
    · injection ht with _ h2
      injection h2 with h3 _
      revert h3
      decide
    · revert hp
      decide
  | c :: d :: s, h => by
    have ih := quiet_post (s := d :: s) fun hh => h (List.infix_cons_iff.2 (.inr hh))
    rintro hi
    rcases List.infix_cons_iff.1 hi with ⟨t, ht⟩ | hp
    · injection ht with h1 h2
      injection h2 with h3 _
      exact h ⟨[], s, by rw [h1, h3]; rfl⟩
    · exact ih hp

/-- A comment on one line. -/
theorem lex_note {c r : Str} (h : Quiet c) : lex (.out []) ('/' :: '*' :: ' ' :: (c ++ ' ' :: '*' :: '/' :: r)) = lex (.out []) r := by
  rw [lex_comment_start]
  have hq : Quiet (' ' :: (c ++ [' '])) := quiet_pre (by decide) (quiet_post h)
  have hl : (' ' :: (c ++ [' '])).getLast? ≠ some '*' := by
    rw [List.getLast?_cons, List.getLast?_append]
    simp
  have := lex_comment_in (r := '*' :: '/' :: r) hq hl
  simp only [List.cons_append, List.append_assoc, List.nil_append] at this
  rw [this, lex_comment_end]

/-! ### lines -/

/-- Lines, each after a line break. -/
def broken (ls : List Str) : Str := ls.flatMap fun l => '\n' :: l

theorem broken_append (a b : List Str) : broken (a ++ b) = broken a ++ broken b := by simp [broken]

theorem delim_broken {ls : List Str} {r : Str} (hr : Delim r) : Delim (broken ls ++ r) := by
  cases ls with
  | nil => exact hr
  | cons l ls => exact delim_nl _

/-- What is read of the lines. -/
def Lines (ls : List Str) (is : List Tok) : Prop := ∀ r, Delim r → lex (.out []) (broken ls ++ r) = is ++ lex (.out []) r

theorem lines_nil : Lines [] [] := fun _ _ => rfl

theorem lines_append {a b : List Str} {s t : List Tok} (ha : Lines a s) (hb : Lines b t) : Lines (a ++ b) (s ++ t) := by
  intro r hr
  rw [broken_append, List.append_assoc, ha _ (delim_broken hr), hb r hr, List.append_assoc]

/-- What is read of a piece of a line. -/
def Says (s : Str) (ts : List Tok) : Prop := ∀ r, Delim r → lex (.out []) (s ++ r) = ts ++ lex (.out []) r

theorem lines_one {s : Str} {ts : List Tok} (k : Nat) (h : Says s ts) : Lines [pad k ++ s] ts := by
  intro r hr
  show lex (.out []) ('\n' :: (pad k ++ s) ++ [] ++ r) = _
  rw [List.append_nil, List.cons_append, lex_nl, List.append_assoc, pad, lex_spaces, h r hr]

/-! ### statements -/

theorem lex_spaced {r : Str} (hr : Delim r) : ∀ {l : List Str}, (∀ w ∈ l, Plain w) →
    lex (.out []) (spaced l ++ r) = l.map .word ++ lex (.out []) r
  | [], _ => rfl
  | w :: l, h => by
    have hd : Delim (spaced l ++ r) := by
      cases l with
      | nil => exact hr
      | cons v l => exact delim_sp _
    show lex (.out []) (((' ' :: w) ++ spaced l) ++ r) = _
    rw [List.cons_append, List.cons_append, lex_sp, List.append_assoc, lex_word (h w (by simp)) hd,
      lex_spaced hr fun v hv => h v (by simp [hv])]
    rfl

instance (w : Str) : Decidable (Plain w) := inferInstanceAs (Decidable (_ ∧ _))

theorem says_words {k : Str} {l : List Str} (hk : Plain k) (hl : ∀ w ∈ l, Plain w) : Says (k ++ (spaced l ++ [';'])) (tokItem (.stmt (k :: l))) := by
  intro r _
  have hd : Delim (spaced l ++ ';' :: r) := by
    cases l with
    | nil => exact delim_semi _
    | cons v l => exact delim_sp _
  rw [List.append_assoc, List.append_assoc, List.singleton_append, lex_word hk hd, lex_spaced (delim_semi r) hl, lex_semi, tokItem]
  simp

theorem plain_open : Plain ['['] := by decide
theorem plain_close : Plain [']'] := by decide

theorem says_bracket {key : String} {l : List Str} {s : Str} (hk : Plain key.toList) (hl : ∀ w ∈ l, Plain w)
    (hs : s = key.toList ++ (spaced (['['] :: l ++ [[']']]) ++ [';'])) : Says s (tokItem (bracket key l)) := by
  subst hs
  refine says_words hk fun w hw => ?_
  simp only [List.cons_append, List.mem_cons, List.mem_append, List.not_mem_nil, or_false] at hw
  rcases hw with rfl | hw | rfl
  · exact plain_open
  · exact hl w hw
  · exact plain_close

theorem spaced_append (a b : List Str) : spaced (a ++ b) = spaced a ++ spaced b := by simp [spaced]

theorem spaced_joined : ∀ {l : List Str}, l ≠ [] → spaced l = ' ' :: joined l
  | [], h => absurd rfl h
  | [w], _ => by simp [spaced, joined]
  | w :: v :: l, _ => by
    have := spaced_joined (l := v :: l) (by simp)
    show (' ' :: w) ++ spaced (v :: l) = _
    rw [this, joined]
    rfl

theorem trailed_spaced : ∀ l : List Str, ' ' :: trailed l = spaced l ++ [' ']
  | [] => rfl
  | w :: l => by
    have := trailed_spaced l
    show ' ' :: ((w ++ [' ']) ++ trailed l) = ((' ' :: w) ++ spaced l) ++ [' ']
    rw [List.append_assoc, List.append_assoc, ← this]
    simp

/-! ### trees -/

/-- What is read of the lines of a tree. -/
def TypM (t : Typ) (is : List Item) : Prop := ∀ k b, Lines (typLines k b t) (tokItems is)

/-- What is read of a tree. -/
def TreeM (t : Tree) (is : List Item) : Prop := ∀ k, Lines (printTree k t) (tokItems is)

/-- What is read of trees. -/
def TreesM (ts : List Tree) (is : List Item) : Prop := ∀ k, Lines (printTrees k ts) (tokItems is)

theorem typ_none : TypM .none [] := fun _ _ => lines_nil

theorem typ_line {s : Str} {i : Item} (h : Says s (tokItem i)) : TypM (.line s) [i] := by
  intro k b
  have : tokItems [i] = tokItem i := by simp [tokItems]
  rw [this]
  exact lines_one _ h

theorem typ_hidden {s : Str} (h : Says s []) : TypM (.line s) [] := fun _ _ => lines_one _ h

theorem typ_lines {α : Type} {f : α → Str} {g : α → Item} : ∀ {l : List α}, (∀ x ∈ l, Says (f x) (tokItem (g x))) →
    TypM (.lines (l.map f)) (l.map g)
  | [], _ => fun _ _ => lines_nil
  | x :: l, h => by
    intro k b
    exact lines_append (lines_one (k + 1) (h x (by simp))) (typ_lines (fun y hy => h y (by simp [hy])) k b)

theorem typ_lines_nil : TypM (.lines []) [] := fun _ _ => lines_nil

theorem typ_lines_cons {s : Str} {l : List Str} {i : Item} {is : List Item} (h : Says s (tokItem i)) (hl : TypM (.lines l) is) :
    TypM (.lines (s :: l)) (i :: is) := by
  intro k b
  exact lines_append (lines_one (k + 1) h) (hl k b)

theorem typ_lines_append {l m : List Str} {is js : List Item} (hl : TypM (.lines l) is) (hm : TypM (.lines m) js) :
    TypM (.lines (l ++ m)) (is ++ js) := by
  intro k b
  have := lines_append (hl k b) (hm k b)
  rw [← tokItems_append] at this
  simpa [typLines] using this

theorem trees_nil : TreesM [] [] := fun _ => lines_nil

theorem trees_cons {t : Tree} {ts : List Tree} {is js : List Item} (h : TreeM t is) (hs : TreesM ts js) : TreesM (t :: ts) (is ++ js) := by
  intro k
  rw [tokItems_append]
  exact lines_append (h k) (hs k)

theorem trees_one {t : Tree} {is : List Item} (h : TreeM t is) : TreesM [t] is := by
  have := trees_cons h trees_nil
  rwa [List.append_nil] at this

theorem trees_append {ts : List Tree} : ∀ {us : List Tree} {is js : List Item}, TreesM us is → TreesM ts js → TreesM (us ++ ts) (is ++ js)
  | us, is, js, hu, ht => by
    intro k
    have hp : ∀ (a b : List Tree), printTrees k (a ++ b) = printTrees k a ++ printTrees k b := by
      intro a b
      induction a with
      | nil => simp [printTrees]
      | cons x a ih => rw [List.cons_append, printTrees, printTrees, ih, List.append_assoc]
    rw [hp, tokItems_append]
    exact lines_append (hu k) (ht k)

theorem trees_map {α : Type} {f : α → Tree} {g : α → Item} : ∀ {l : List α}, (∀ x ∈ l, TreeM (f x) [g x]) → TreesM (l.map f) (l.map g)
  | [], _ => trees_nil
  | x :: l, h => by
    have ih : TreesM (l.map f) (l.map g) := trees_map fun y hy => h y (by simp [hy])
    exact trees_cons (h x (by simp)) ih

/-- A tree without name. -/
theorem tree_bare {t : Typ} {is : List Item} (h : TypM t is) : TreeM (.node [] t []) is := by
  intro k
  rw [printTree, if_pos rfl, printTrees, List.append_nil]
  exact h k false

/-- The name of a block. -/
def HeadM (name : Str) (ws : List Str) : Prop := Says (name ++ [' ', ' ', '{']) (ws.map .word ++ [.opn])

theorem tree_node {name : Str} {ws : List Str} {t : Typ} {cs : List Tree} {is js : List Item} (hn : name ≠ []) (hh : HeadM name ws)
    (ht : TypM t is) (hc : TreesM cs js) : TreeM (.node name t cs) [.block ws (is ++ js)] := by
  intro k
  rw [printTree, if_neg hn]
  have hcl : Says ['}'] [.cls] := fun r _ => by rw [List.singleton_append, lex_cls]; rfl
  have := lines_append (lines_append (lines_append (lines_one k hh) (ht k true)) (hc (k + 1))) (lines_one k hcl)
  have he : tokItems [.block ws (is ++ js)] = ws.map .word ++ [.opn] ++ tokItems is ++ tokItems js ++ [.cls] := by
    simp [tokItems, tokItem, tokItems_append]
  rw [he, List.append_assoc (pad k)]
  exact this

theorem head_one {w : Str} (hw : Plain w) : HeadM w [w] := by
  intro r _
  rw [List.append_assoc]
  show lex (.out []) (w ++ ' ' :: ' ' :: '{' :: r) = _
  rw [lex_word hw (delim_sp _)]
  show .word w :: lex (.out []) (' ' :: ' ' :: '{' :: r) = _
  rw [lex_sp, lex_sp, lex_opn]
  rfl

theorem head_two {w v : Str} (hw : Plain w) (hv : Plain v) : HeadM (w ++ ' ' :: v) [w, v] := by
  intro r _
  rw [List.append_assoc, List.append_assoc, List.cons_append, lex_word hw (delim_sp _), lex_sp]
  show .word w :: lex (.out []) (v ++ ' ' :: ' ' :: '{' :: r) = _
  rw [lex_word hv (delim_sp _)]
  show .word w :: .word v :: lex (.out []) (' ' :: ' ' :: '{' :: r) = _
  rw [lex_sp, lex_sp, lex_opn]
  rfl

theorem tree_branch {name : String} {cs : List Tree} {js : List Item} (hn : Plain name.toList) (hc : TreesM cs js) :
    TreeM (branch name cs) [section_ name js] := tree_node hn.1 (head_one hn) typ_none hc

/-- A block with a keyword and a name. -/
theorem tree_named {key : String} {v name : Str} {t : Typ} {cs : List Tree} {is js : List Item} (hk : Plain key.toList) (hv : Plain v)
    (hs : name = key.toList ++ ' ' :: v) (ht : TypM t is) (hc : TreesM cs js) : TreeM (.node name t cs) [.block [key.toList, v] (is ++ js)] := by
  subst hs
  exact tree_node (by simp) (head_two hk hv) ht hc

theorem tree_keyed {key : String} {t : Typ} {cs : List Tree} {is js : List Item} (hk : Plain key.toList)
    (ht : TypM t is) (hc : TreesM cs js) : TreeM (.node key.toList t cs) [section_ key (is ++ js)] :=
  tree_node hk.1 (head_one hk) ht hc

/-! ### comments -/

theorem lex_hidden_lines {k : Nat} : ∀ {ls : List Str}, (∀ l ∈ ls, Quiet l) → ∀ r,
    lex .comment (broken (ls.map fun s => pad k ++ s) ++ '\n' :: r) = lex .comment ('\n' :: r)
  | [], _, _ => rfl
  | l :: ls, h, r => by
    have ih := lex_hidden_lines (k := k) (ls := ls) (fun m hm => h m (by simp [hm])) r
    obtain ⟨q, hq⟩ : ∃ q, broken (ls.map fun s => pad k ++ s) ++ '\n' :: r = '\n' :: q := by
      cases ls with
      | nil => exact ⟨_, rfl⟩
      | cons m ls => exact ⟨_, rfl⟩
    have e : broken ((l :: ls).map fun s => pad k ++ s) ++ '\n' :: r = '\n' :: (pad k ++ l) ++ '\n' :: q := by
      rw [← hq]
      simp [broken]
    have h0 : ∀ s, lex .comment ('\n' :: s) = lex .comment s := fun s => by
      rw [lex]
      rintro _ e
      exact absurd e (by decide)
    have hp : Quiet ('\n' :: (pad k ++ (l ++ [' ']))) := by
      refine quiet_pre (by decide) ?_
      have := quiet_post (h l (by simp))
      unfold pad
      generalize 4 * k = n
      induction n with
      | zero => exact this
      | succ n ihn => rw [List.replicate_succ]; exact quiet_pre (by decide) ihn
    have hq2 : Quiet ('\n' :: (pad k ++ l)) := fun hi => hp (by
      obtain ⟨x, y, hxy⟩ := hi
      exact ⟨x, y ++ [' '], by rw [← List.append_assoc, hxy]; simp⟩)
    rw [e, ← ih, hq, h0 q]
    by_cases hl : ('\n' :: (pad k ++ l)).getLast? = some '*'
    · -- the line ends with an asterisk, and the next character is a line break
      have hsp : Quiet ('\n' :: (pad k ++ l) ++ ['\n']) := by
        intro hi
        refine hp ?_
        obtain ⟨x, y, hxy⟩ := hi
        rcases List.eq_nil_or_concat y with rfl | ⟨y', z, rfl⟩
        · have := congrArg List.getLast? hxy
          rw [List.append_nil, List.getLast?_append, List.getLast?_append] at this
          simp at this
        · refine ⟨x, y' ++ [' '], ?_⟩
          have h2 : x ++ ['*', '/'] ++ y' = '\n' :: (pad k ++ l) := by
            have := congrArg List.dropLast hxy
            rw [List.concat_eq_append, ← List.append_assoc, List.dropLast_concat, List.dropLast_concat] at this
            exact this
          rw [← List.append_assoc, h2]
          simp
      have := lex_comment_in (r := q) hsp (by rw [List.getLast?_append]; simp)
      rw [← this]
      simp
    · rw [lex_comment_in hq2 hl, h0]

theorem typ_note_lines {ls : List Str} (h : ∀ l ∈ ls, Quiet l) : TypM (.lines (['/', '*'] :: ls ++ [['*', '/']])) [] := by
  intro k b r _
  show lex (.out []) (broken ((['/', '*'] :: ls ++ [['*', '/']]).map fun s => pad (k + 1) ++ s) ++ r) = _
  have e : broken ((['/', '*'] :: ls ++ [['*', '/']]).map fun s => pad (k + 1) ++ s) ++ r =
      '\n' :: (pad (k + 1) ++ '/' :: '*' :: (broken (ls.map fun s => pad (k + 1) ++ s) ++ '\n' :: (pad (k + 1) ++ '*' :: '/' :: r))) := by
    simp [broken]
  rw [e, lex_nl, pad, lex_spaces, lex_comment_start, ← pad, lex_hidden_lines h]
  have h0 : ∀ s, lex .comment ('\n' :: s) = lex .comment s := fun s => by
    rw [lex]
    rintro _ e
    exact absurd e (by decide)
  have hs : ∀ n s, lex .comment (List.replicate n ' ' ++ s) = lex .comment s := by
    intro n s
    induction n with
    | zero => rfl
    | succ n ih =>
      rw [List.replicate_succ, List.cons_append, lex]
      · exact ih
      · rintro _ e
        exact absurd e (by decide)
  rw [h0, pad, hs, lex_comment_end]
  rfl

/-- What `findall` finds is in the text. -/
theorem findAll_infix {n : Nat} : ∀ {f run : Nat} {s p : Str}, p ∈ Wrap.findAll n f run s → p <:+: s
  | 0, _, _, _, h => nomatch h
  | f + 1, run, s, p, h => by
    unfold Wrap.findAll at h
    split at h
    · exact nomatch h
    · split at h
      next k _ =>
        rcases List.mem_cons.1 h with rfl | h
        · exact (List.take_prefix k s).isInfix
        · exact (findAll_infix h).trans (List.drop_suffix k s).isInfix
      next => exact (findAll_infix h).trans (List.drop_suffix 1 s).isInfix

theorem wrap_quiet {n : Nat} {cs : List Str} (h : ∀ c ∈ cs, Quiet c) : ∀ l ∈ (Wrap.wrapWords n cs).2, Quiet l := by
  intro l hl hi
  obtain ⟨c, hc, hl⟩ := List.mem_flatMap.1 hl
  have h1 := (Wrap.textLines_mem hl).1
  have h2 : ['*', '/'] <:+: Wrap.wrapText n c := hi.trans h1
  unfold Wrap.wrapText at h2
  split at h2
  · obtain ⟨p, hp, h3⟩ := Wrap.infix_join (by decide) (by simp) h2
    exact h c hc (h3.trans (findAll_infix hp))
  · exact h c hc h2

end Verif.Lemmas.VersaTreeL
