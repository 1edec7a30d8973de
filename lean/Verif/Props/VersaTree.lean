import Verif.Lemmas.VersaTree

/-!
C179: the text of a Versa configuration says what the configuration says.
-/

namespace Verif.Props
open Verif Verif.Versa
open Verif.Lemmas.VersaTreeL
open Verif.Spec.VersaText (Item Plain Quiet PlainSide PlainRule PlainOutput reads config bracket section_ sideItem appItems setItems ruleItem
  portList serviceItem objectItems lex)

namespace VersaTextL

/-- A list in brackets, as it is written for zones. -/
theorem says_list {key : String} {l : List Str} {pre : Str} (hk : Plain key.toList) (hl : ∀ w ∈ l, Plain w)
    (hp : pre = key.toList ++ [' ', '[']) : Says (pre ++ spaced l ++ " ];".toList) (tokItem (bracket key l)) := by
  refine says_bracket hk hl ?_
  subst hp
  show _ = key.toList ++ (spaced ([['[']] ++ l ++ [[']']]) ++ [';'])
  rw [spaced_append, spaced_append]
  simp [spaced]

theorem side_tree {kind : String} {s : Side} (hk : Plain kind.toList) (h : PlainSide s) : TreeM (sideTree kind s) [sideItem kind s] := by
  refine tree_branch hk (trees_one ?_)
  have h1 : TypM (.line ("zone-list [".toList ++ spaced (s.zones.map String.toList) ++ " ];".toList))
      [bracket "zone-list" (s.zones.map String.toList)] := typ_line (says_list (by decide +kernel) (by
    intro w hw
    obtain ⟨z, hz, rfl⟩ := List.mem_map.1 hw
    exact h.1 z hz) rfl)
  refine tree_keyed (key := "zone") (by decide +kernel) h1 ?_
  cases hg : s.group with
  | none => exact trees_nil
  | some g =>
    refine trees_one (tree_keyed (key := "address") (js := []) (by decide +kernel) ?_ trees_nil |> fun t => by rwa [List.append_nil] at t)
    refine typ_lines_cons ?_ ?_
    · refine says_bracket (by decide +kernel) (l := [g]) (by simpa using h.2 g hg) ?_
      simp [spaced]
    · cases s.negate with
      | false => exact typ_lines_nil
      | true => exact typ_lines_cons (says_words (k := "negate".toList) (l := []) (by decide +kernel) (by simp)) typ_lines_nil

theorem app_trees {r : VRule} (h : PlainRule r) : TreesM (appTrees r) (appItems r) := by
  unfold appTrees appItems
  have h1 : TypM (.lines (if r.services = [] then [] else ["services-list [".toList ++ spaced r.services ++ " ];".toList]))
      (if r.services = [] then [] else [bracket "services-list" r.services]) := by
    split
    · exact typ_lines_nil
    · exact typ_lines_cons (says_list (by decide +kernel) h.services rfl) typ_lines_nil
  have h2 : TypM (.lines (if r.predefined = [] then [] else
      ["predefined-services-list [".toList ++ spaced (r.predefined.map String.toList) ++ " ];".toList]))
      (if r.predefined = [] then [] else [bracket "predefined-services-list" (r.predefined.map String.toList)]) := by
    split
    · exact typ_lines_nil
    · refine typ_lines_cons (says_list (by decide +kernel) ?_ rfl) typ_lines_nil
      intro w hw
      obtain ⟨z, hz, rfl⟩ := List.mem_map.1 hw
      exact h.predefined z hz
  by_cases hs : r.services = [] ∧ r.predefined = []
  · rw [if_pos hs]
    simp only [hs.1, hs.2, if_true, List.append_nil]
    exact trees_nil
  · rw [if_neg hs]
    simp only
    rw [if_neg (by
      intro e
      refine hs ⟨?_, ?_⟩
      · by_cases e1 : r.services = []
        · exact e1
        · rw [if_neg e1] at e
          exact absurd (List.append_eq_nil_iff.1 e).1 (List.cons_ne_nil _ _)
      · by_cases e1 : r.predefined = []
        · exact e1
        · rw [if_neg e1] at e
          exact absurd (List.append_eq_nil_iff.1 e).2 (List.cons_ne_nil _ _))]
    have := tree_keyed (key := "services") (js := []) (by decide +kernel) (typ_lines_append h1 h2) trees_nil
    rw [List.append_nil] at this
    exact trees_one this

theorem dscp_trees {r : VRule} (h : PlainRule r) :
    TreesM (dscpTrees r) (if r.dscp = [] then [] else [bracket "dscp" (r.dscp.map String.toList)]) := by
  unfold dscpTrees
  split
  · exact trees_nil
  next hne =>
    refine trees_one (tree_bare (typ_line ?_))
    refine says_bracket (by decide +kernel) ?_ ?_
    · intro w hw
      obtain ⟨z, hz, rfl⟩ := List.mem_map.1 hw
      exact h.dscp z hz
    · show _ = "dscp".toList ++ (spaced ([['[']] ++ r.dscp.map String.toList ++ [[']']]) ++ [';'])
      rw [spaced_append, spaced_append, spaced_joined (l := r.dscp.map String.toList) (by simpa using hne)]
      simp [spaced]

theorem set_trees {r : VRule} (h : PlainRule r) : TreesM (setTrees r) (setItems r) := by
  unfold setTrees setItems
  cases ha : r.act with
  | none => exact trees_nil
  | some p =>
    obtain ⟨a, e⟩ := p
    obtain ⟨h1, h2⟩ := h.act _ ha
    refine trees_one (tree_branch (by decide +kernel) ?_)
    refine trees_cons (is := [_]) (tree_bare (typ_line ?_)) (trees_one ?_)
    · have := says_words (k := "action".toList) (l := [a.toList]) (by decide +kernel) (by simpa using h1)
      have e' : "action ".toList ++ a.toList ++ [';'] = "action".toList ++ (spaced [a.toList] ++ [';']) := by simp [spaced]
      rw [e']
      exact this
    · have := says_words (k := "event".toList) (l := [e.toList]) (by decide +kernel) (by simpa using h2)
      have e' : "event ".toList ++ e.toList ++ [';'] = "event".toList ++ (spaced [e.toList] ++ [';']) := by simp [spaced]
      rw [e']
      exact tree_keyed (key := "lef") (js := []) (by decide +kernel) (typ_line this) trees_nil

theorem says_note {c : Str} (h : Quiet c) : Says ("/* ".toList ++ c ++ " */".toList) [] := by
  intro r _
  have e : "/* ".toList ++ c ++ " */".toList ++ r = '/' :: '*' :: ' ' :: (c ++ ' ' :: '*' :: '/' :: r) := by simp
  rw [e, lex_note h]
  rfl

theorem note_trees {v : Bool} {cs : List Str} (h : ∀ c ∈ cs, Quiet c) : TreesM (noteTrees v cs) [] := by
  cases cs with
  | nil => exact trees_nil
  | cons c cs =>
    unfold noteTrees
    cases v with
    | false => exact trees_nil
    | true =>
      show TreesM (if c.length < 60 then _ else _) _
      split
      · exact trees_one (tree_bare (typ_hidden (says_note (h c (by simp)))))
      · exact trees_one (tree_bare (typ_note_lines (wrap_quiet h)))

theorem rule_tree {v : Bool} {cs : List Str} {r : VRule} (hc : ∀ c ∈ cs, Quiet c) (h : PlainRule r) :
    TreeM (ruleTree v cs r) [ruleItem r] := by
  unfold ruleTree ruleItem
  have hs : TreesM (r.src.toList.map (sideTree "source")) (r.src.toList.map (sideItem "source")) :=
    trees_map fun s hs => side_tree (by decide +kernel) (h.src s (by simpa using hs))
  have hd : TreesM (r.dst.toList.map (sideTree "destination")) (r.dst.toList.map (sideItem "destination")) :=
    trees_map fun s hs => side_tree (by decide +kernel) (h.dst s (by simpa using hs))
  have hm := tree_branch (name := "match") (by decide +kernel) (trees_append (trees_append (trees_append hs hd) (app_trees h)) (dscp_trees h))
  exact tree_named (key := "access-policy") (by decide +kernel) h.name (by simp) typ_none
    (trees_append (trees_append (note_trees hc) (trees_one hm)) (set_trees h))

theorem address_tree {text : Net → Str} {e : Str × Net} (h : Plain e.1 ∧ Plain (text e.2)) : TreeM (addressTree text e)
    [.block ["address".toList, e.1] [.stmt [if e.2.ver = .v6 then "ipv6-prefix".toList else "ipv4-prefix".toList, text e.2]]] := by
  unfold addressTree
  refine tree_named (key := "address") (js := []) (is := [_]) (by decide +kernel) h.1 (by simp) (typ_line ?_) trees_nil
  have key : ∀ k : Str, Plain k → Says (k ++ [' '] ++ ' ' :: text e.2 ++ [';']) (tokItem (.stmt [k, text e.2])) := by
    intro k hk r _
    have e1 : k ++ [' '] ++ ' ' :: text e.2 ++ [';'] ++ r = k ++ ' ' :: ' ' :: (text e.2 ++ ';' :: r) := by simp
    rw [e1, lex_word hk (delim_sp _), lex_sp, lex_sp, lex_word h.2 (delim_semi _), lex_semi]
    rfl
  split
  · exact key "ipv6-prefix".toList (by decide +kernel)
  · exact key "ipv4-prefix".toList (by decide +kernel)

theorem group_tree {g : Str × List Str} (h : Plain g.1 ∧ ∀ m ∈ g.2, Plain m) :
    TreeM (groupTree g) [.block ["group".toList, g.1] [bracket "address-list" g.2]] := by
  unfold groupTree
  refine tree_named (key := "group") (js := []) (is := [_]) (by decide +kernel) h.1 (by simp) (typ_line ?_) trees_nil
  refine says_bracket (by decide +kernel) h.2 ?_
  show _ = "address-list".toList ++ (spaced ([['[']] ++ g.2 ++ [[']']]) ++ [';'])
  rw [spaced_append, spaced_append, List.append_assoc (spaced [['[']])]
  have := trailed_spaced g.2
  have e1 : spaced g.2 ++ spaced [[']']] = ' ' :: (trailed g.2 ++ [']']) := by
    have e2 : spaced g.2 ++ spaced [[']']] = (spaced g.2 ++ [' ']) ++ [']'] := by simp [spaced]
    rw [e2, ← this]
    rfl
  rw [e1]
  simp [spaced]

theorem num_chars (n : Nat) : ∀ c ∈ (toString n).toList, c ≠ '"' := by
  rintro c hc rfl
  have h1 : '"' ∈ Nat.toDigits 10 n := by
    have : (toString n).toList = Nat.toDigits 10 n := by
      show (Nat.repr n).toList = _
      rw [Nat.repr]
      simp
    rwa [this] at hc
  have := Nat.isDigit_of_mem_toDigits (by decide +kernel) (by decide +kernel) h1
  revert this
  decide

theorem port_words : ∀ l : List Policy.PortRange, portWords l = portList l
  | [] => rfl
  | [r] => by simp [portWords, portList, portWord, List.intercalate]
  | r :: q :: l => by
    have := port_words (q :: l)
    rw [portWords, this]
    simp [portList, portWord, List.intercalate]

theorem port_chars (l : List Policy.PortRange) : ∀ c ∈ portWords l, c ≠ '"' := by
  have hw : ∀ r : Policy.PortRange, ∀ c ∈ portWord r, c ≠ '"' := by
    intro r c hc
    unfold portWord at hc
    split at hc
    · exact num_chars _ c hc
    · rcases List.mem_append.1 hc with hc | hc
      · exact num_chars _ c hc
      · rcases List.mem_cons.1 hc with rfl | hc
        · decide
        · exact num_chars _ c hc
  induction l with
  | nil => intro c hc; exact nomatch hc
  | cons r l ih =>
    cases l with
    | nil => exact hw r
    | cons q l =>
      intro c hc
      rw [portWords] at hc
      rcases List.mem_append.1 hc with hc | hc
      · exact hw r c hc
      · rcases List.mem_cons.1 hc with rfl | hc
        · decide
        · rcases List.mem_cons.1 hc with rfl | hc
          · decide
          · exact ih c hc

theorem lex_quote : ∀ {q w r : Str}, (∀ c ∈ q, c ≠ '"') → lex (.quote w) (q ++ '"' :: r) = .word (w ++ q) :: lex (.out []) r
  | [], w, r, _ => by
    rw [List.nil_append, lex, if_pos rfl, List.append_nil]
  | c :: q, w, r, h => by
    rw [List.cons_append, lex, if_neg (h c (by simp)), lex_quote fun d hd => h d (by simp [hd])]
    simp

theorem port_lines {key : String} (hk : Plain key.toList) (l : List Policy.PortRange) :
    TypM (.lines (portLines key l)) (if l = [] then [] else [.stmt [key.toList, portList l]]) := by
  unfold portLines
  split
  · exact typ_lines_nil
  · refine typ_lines_cons ?_ typ_lines_nil
    intro r _
    have e1 : key.toList ++ ' ' :: '"' :: portWords l ++ ['"', ';'] ++ r = key.toList ++ ' ' :: '"' :: (portWords l ++ '"' :: ';' :: r) := by simp
    rw [e1, lex_word hk (delim_sp _), lex_sp, lex_char (by decide +kernel), if_pos rfl, lex_quote (port_chars l), lex_semi, port_words]
    rfl

theorem service_tree {s : Service} (h : Plain s.name ∧ (s.proto ≠ [] → Plain s.proto)) : TreeM (serviceTree s) [serviceItem s] := by
  unfold serviceTree serviceItem
  have hp : Says ("protocol ".toList ++ s.proto ++ [';']) (tokItem (.stmt ("protocol".toList :: if s.proto = [] then [] else [s.proto]))) := by
    by_cases e : s.proto = []
    · rw [e, if_pos rfl]
      intro r _
      have e1 : "protocol ".toList ++ [] ++ [';'] ++ r = "protocol".toList ++ ' ' :: ';' :: r := by simp
      rw [e1, lex_word (by decide +kernel) (delim_sp _), lex_sp, lex_semi]
      rfl
    · rw [if_neg e]
      have := says_words (k := "protocol".toList) (l := [s.proto]) (by decide +kernel) (by simpa using h.2 e)
      have e' : "protocol ".toList ++ s.proto ++ [';'] = "protocol".toList ++ (spaced [s.proto] ++ [';']) := by simp [spaced]
      rw [e']
      exact this
  have := tree_named (key := "service") (js := []) (by decide +kernel) h.1 (by simp)
    (typ_lines_cons hp (typ_lines_append (port_lines (key := "source-port") (by decide +kernel) s.sport)
      (port_lines (key := "destination-port") (by decide +kernel) s.dport))) trees_nil (name := "service ".toList ++ s.name)
  rw [List.append_nil] at this
  exact this

theorem object_trees {text : Net → Str} {o : Output} (h : PlainOutput text o) : TreesM (objectTrees text o) (objectItems text o) := by
  unfold objectTrees objectItems
  split
  · exact trees_nil
  · refine trees_one (tree_branch (by decide +kernel) (trees_append ?_ ?_))
    · exact trees_cons (is := [_]) (tree_branch (by decide +kernel) (trees_map fun e he => address_tree (h.addresses e he)))
        (trees_one (tree_branch (by decide +kernel) (trees_map fun g hg => group_tree (h.groups g hg))))
    · split
      · exact trees_nil
      · exact trees_one (tree_branch (by decide +kernel) (trees_map fun s hs => service_tree (h.services s hs)))

theorem root_tree {text : Net → Str} {comment : Str} {rules : List ((Bool × List Str) × VRule)} {o : Output} (h : PlainOutput text o)
    (hr : rules.map Prod.snd = o.rules) (hc : Quiet comment) (hn : ∀ r ∈ rules, ∀ c ∈ r.1.2, Quiet c) :
    TreeM (rootTree text comment rules o) (config text o) := by
  unfold rootTree config
  have h0 : TreesM (rules.map fun r => ruleTree r.1.1 r.1.2 r.2) (o.rules.map ruleItem) := by
    have : o.rules.map ruleItem = rules.map fun r => ruleItem r.2 := by rw [← hr, List.map_map]; rfl
    rw [this]
    exact trees_map fun r hm => rule_tree (hn r hm) (h.rules r.2 (by rw [← hr]; exact List.mem_map.2 ⟨r, hm, rfl⟩))
  have h1 : TreesM (if comment = [] then [] else [.node [] (.line ("/* ".toList ++ comment ++ " */".toList)) []]) [] := by
    split
    · exact trees_nil
    · exact trees_one (tree_bare (typ_hidden (says_note hc)))
  have h2 := tree_named (key := "access-policy-group") (name := "access-policy-group ".toList ++ o.names.policy.toList) (by decide +kernel)
    h.names.2.2 (by simp) typ_none (trees_one (tree_branch (name := "rules") (by decide +kernel) h0))
  have h3 := tree_branch (name := "security") (by decide +kernel) (trees_one (tree_branch (name := "access-policies") (by decide +kernel) (trees_one h2)))
  have h4 := tree_named (key := "org-services") (name := "org-services ".toList ++ o.names.tenant.toList) (by decide +kernel)
    h.names.2.1 (by simp) typ_none (trees_append (trees_one h3) (object_trees h))
  have h5 := tree_branch (name := "config") (by decide +kernel) (trees_append h1 (trees_one (tree_branch (name := "orgs") (by decide +kernel) (trees_one h4))))
  have h6 := tree_named (key := "template") (name := "template ".toList ++ o.names.template.toList) (by decide +kernel)
    h.names.1 (by simp) typ_none (trees_one h5)
  exact tree_branch (name := "devices") (by decide +kernel) (trees_one h6)

end VersaTextL
open VersaTextL

/-- **C179**: a device that reads the text gets exactly the configuration: all rules with their sides, services and actions in their order, and
all addresses, groups and services, whatever the comments say. Missing: words with white space, braces, semicolons, quotes or the begin of a
comment, and comments with the end of one; see the refutations. -/
theorem C179_read_partial {textOf : Net → Str} {comment : Str} {rules : List ((Bool × List Str) × VRule)} {o : Output}
    (h : PlainOutput textOf o) (hr : rules.map Prod.snd = o.rules) (hc : Quiet comment) (hn : ∀ r ∈ rules, ∀ c ∈ r.1.2, Quiet c) :
    reads (Versa.text textOf comment rules o) = some (config textOf o) := by
  have ht := root_tree h hr hc hn 0 [] (.inl rfl)
  unfold Verif.Spec.VersaText.reads Versa.text
  have hne : ∃ a l, printTree 0 (rootTree textOf comment rules o) = a :: l := by
    unfold rootTree branch
    rw [printTree, if_neg (by decide +kernel)]
    exact ⟨_, _, rfl⟩
  obtain ⟨a, l, e⟩ := hne
  rw [e] at ht ⊢
  rw [Wrap.joinNl_flat]
  have e2 : broken (a :: l) ++ [] = '\n' :: (a ++ l.flatMap fun x => '\n' :: x) := by simp [broken]
  rw [e2, lex_nl] at ht
  rw [ht]
  have e3 : lex (.out []) [] = [] := by rw [lex]; rfl
  rw [e3, List.append_nil, parse_all]

/-- A rule that denies all. -/
def denyRule : VRule := { name := "b".toList, act := some ("deny", "never") }

/-- An output with a rule for zones, addresses, services and DSCP, and one that denies the rest. -/
def fullOutput : Output where
  names := { template := "T", tenant := "N", policy := "P" }
  rules := [{ name := "a".toList, src := some ⟨["trust", "dmz"], some "src-a".toList, true⟩, dst := some ⟨["untrust"], none, false⟩,
              services := ["a-app1".toList], predefined := ["ICMP"], dscp := ["46"], act := some ("allow", "start") }, denyRule]
  addresses := [("_0".toList, { ver := .v4, addr := 10 * 2 ^ 24, plen := 8 })]
  groups := [("src-a".toList, ["_0".toList])]
  services := [{ name := "a-app1".toList, proto := "TCP".toList, dport := [(80, 80), (1024, 65535)] }]

/-- The text of the only network. -/
def tenText : Net → Str := fun _ => "10.0.0.0/8".toList

/-- The hypotheses of the theorem, with a comment of two texts of which the first is long. -/
example : PlainOutput tenText fullOutput ∧
    [((true, ["a comment with more than sixty characters, so that it is broken; see { the notes }".toList, "more".toList]), fullOutput.rules[0]),
      ((false, []), denyRule)].map Prod.snd = fullOutput.rules ∧ Quiet "a header".toList ∧
    (∀ c ∈ ["a comment with more than sixty characters, so that it is broken; see { the notes }".toList, "more".toList], Quiet c) := by
  refine ⟨⟨by decide +kernel, ?_, by decide +kernel, by decide +kernel, by decide +kernel⟩, rfl, by unfold Quiet; decide +kernel,
    by unfold Quiet; decide +kernel⟩
  intro r hr
  rcases List.mem_cons.1 hr with rfl | hr
  · refine ⟨by decide +kernel, ?_, ?_, by decide +kernel, by decide +kernel, by decide +kernel, ?_⟩
    · intro s hs
      cases hs
      exact ⟨by decide +kernel, fun g hg => by cases hg; decide +kernel⟩
    · intro s hs
      cases hs
      exact ⟨by decide +kernel, fun g hg => nomatch hg⟩
    · intro a ha
      cases ha
      decide +kernel
  · cases List.mem_singleton.1 hr
    refine ⟨by decide +kernel, nofun, nofun, nofun, nofun, nofun, ?_⟩
    intro a ha
    cases ha
    decide +kernel

/-- A comment with the end of a comment in it. -/
def rogueNote : Str := "*/ match { } set { action allow; lef { event never; } } } access-policy c { /*".toList

/-- **C179** is false for comments with the end of a comment: what comes after it is read as configuration. Here a policy that denies all gets
a rule before it that allows all. -/
theorem C179_refuted_comment : reads (Versa.text tenText [] [((true, [rogueNote]), denyRule)] { names := {}, rules := [denyRule] }) =
    some (config tenText { names := {}, rules := [{ name := "b".toList, act := some ("allow", "never") },
      { name := "c".toList, act := some ("deny", "never") }] }) := by
  set_option maxRecDepth 100000 in with_unfolding_all rfl

/-- **C179** is false for such a comment of a header: here nothing of the policy can be read. -/
theorem C179_refuted_header : (reads (Versa.text tenText "see */ }".toList [((true, []), denyRule)]
    { names := {}, rules := [denyRule] })).isNone = true := by
  decide +kernel

end Verif.Props
