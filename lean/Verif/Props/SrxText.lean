import Verif.Props.SrxOutput

/-!
C99: the text of the SRX generator has all its blocks closed. C101: what a policy logs, counts and sets.
-/

namespace Verif.Props
open Verif Verif.Spec Policy Aclgenerator Nacaddr Verif.Srx Verif.Spec.Srx

/-! ### blocks -/

theorem bal_append {l m : List Srx.Line} (h : Balanced l) (hm : Balanced m) : Balanced (l ++ m) := by
  induction h with
  | nil => exact hm
  | stmt _ ih => exact .stmt ih
  | block hb _ _ ih =>
    rw [List.append_assoc, List.cons_append]
    exact .block hb ih

theorem bal_wrap {w : List String} {body : List Srx.Line} (h : Balanced body) : Balanced (.opens w :: body ++ [.closes]) :=
  .block h .nil

theorem bal_flatMap {α : Type} {l : List α} {f : α → List Srx.Line} (h : ∀ a ∈ l, Balanced (f a)) : Balanced (l.flatMap f) := by
  induction l with
  | nil => exact .nil
  | cons a l ih =>
    rw [List.flatMap_cons]
    exact bal_append (h a (by simp)) (ih fun a ha => h a (List.mem_cons_of_mem _ ha))

theorem bal_stmts {α : Type} {l : List α} {f : α → Srx.Line} (h : ∀ a, ∃ w, f a = .stmt w) : Balanced (l.map f) := by
  induction l with
  | nil => exact .nil
  | cons a l ih =>
    obtain ⟨w, hw⟩ := h a
    rw [List.map_cons, hw]
    exact .stmt ih

theorem bal_defs (d : Def) : Balanced (defLines d) := by
  cases d with
  | app name ts => exact bal_wrap (bal_stmts fun t => ⟨_, rfl⟩)
  | set name ms => exact bal_wrap (bal_stmts fun m => ⟨_, rfl⟩)

theorem bal_list (name : String) (l : List String) : Balanced (listLine name l) := by
  unfold listLine
  split
  · exact .nil
  · exact .stmt .nil

/-- The lines of an action close the policy, too. -/
theorem thenLines_eq (t : Then) : ∃ l, Balanced l ∧ thenLines t = l ++ [.closes] := by
  let body : List Srx.Line :=
    (match t.vpn with
      | some v => [.opens [t.action], .opens ["tunnel"], .stmt ["ipsec-vpn", v.1]] ++
          (if v.2 = "" then [] else [.stmt ["pair-policy", v.2]]) ++ [.closes, .closes]
      | none => [.stmt [t.action]]) ++
    (t.dscpSet.map fun s => [Srx.Line.stmt ["dscp", s]]).getD [] ++
    (if t.logs.isEmpty then [] else .opens ["log"] :: (t.logs.map fun s => .stmt [s]) ++ [.closes]) ++
    (if t.count then [.stmt ["count"]] else [])
  have hb : Balanced body := by
    refine bal_append (bal_append (bal_append ?_ ?_) ?_) ?_
    · split
      next v _ =>
        have : Balanced (.opens [t.action] :: ((.opens ["tunnel"] :: ([.stmt ["ipsec-vpn", v.1]] ++
            (if v.2 = "" then [] else [.stmt ["pair-policy", v.2]])) ++ [.closes])) ++ [.closes]) := by
          refine bal_wrap (bal_wrap (bal_append (.stmt .nil) ?_))
          split
          · exact .nil
          · exact .stmt .nil
        simpa using this
      · exact .stmt .nil
    · cases t.dscpSet with
      | none => exact .nil
      | some s => exact .stmt .nil
    · split
      · exact .nil
      · exact bal_wrap (bal_stmts fun s => ⟨_, rfl⟩)
    · split
      · exact .stmt .nil
      · exact .nil
  refine ⟨.opens ["then"] :: body ++ [.closes], bal_wrap hb, ?_⟩
  unfold thenLines
  show _ = .opens ["then"] :: body ++ [.closes] ++ [.closes]
  cases hv : t.vpn <;> simp [body, hv]

theorem bal_policy {q : SPolicy} {t : Then} (h : q.thens = [t]) : Balanced (policyLines q) := by
  obtain ⟨l, hl, e⟩ := thenLines_eq t
  have hm : Balanced (.opens ["match"] :: ([addressLine "source-address" q.src, addressLine "destination-address" q.dst,
      .stmt ["application", (q.app.map fun a => String.ofList (appName a)).getD "any"]] ++ listLine "dscp" q.dscp ++
      listLine "dscp-except" q.dscpExcept ++ listLine "from-zone" q.fromZones ++ listLine "to-zone" q.toZones) ++ [.closes]) :=
    bal_wrap (bal_append (bal_append (bal_append (bal_append (.stmt (.stmt (.stmt .nil))) (bal_list _ _)) (bal_list _ _)) (bal_list _ _))
      (bal_list _ _))
  have := bal_wrap (w := ["policy", String.ofList q.name]) (bal_append hm hl)
  unfold policyLines
  rw [h, List.flatMap_cons, List.flatMap_nil, List.append_nil, e]
  simpa using this

theorem bal_book (b : Book) : Balanced (bookLines b) := by
  have he : Balanced (entryLines b) := by
    unfold entryLines
    exact bal_append (bal_stmts fun a => ⟨_, rfl⟩) (bal_flatMap fun s _ => bal_wrap (bal_stmts fun m => ⟨_, rfl⟩))
  unfold bookLines
  split
  · have := bal_wrap (w := ["replace:", "address-book"]) (bal_wrap (w := ["global"]) he)
    simpa using this
  next z _ =>
    have := bal_wrap (w := ["security-zone", z]) (bal_wrap (w := ["replace:", "address-book"]) he)
    simpa using this

theorem bal_books (l : List Book) : Balanced (booksLines l) := by
  unfold booksLines
  split
  · exact bal_flatMap fun b _ => bal_book b
  · exact bal_wrap (bal_flatMap fun b _ => bal_book b)

theorem bal_icmp {a : App} (h : a.protos.length * a.types.length ≠ 8) : Balanced (icmpLines a) := by
  unfold icmpLines
  split
  · exact bal_flatMap fun d _ => bal_defs d
  · rw [if_pos (by omega)]
    exact bal_wrap (bal_stmts fun t => ⟨_, rfl⟩)

theorem bal_apps {apps : List App} (h : ∀ a ∈ apps, a.protos.length * a.types.length ≠ 8) : Balanced (appLines apps) := by
  unfold appLines
  split
  · exact .stmt .nil
  · rw [List.cons_append, List.cons_append]
    refine bal_wrap (bal_append (bal_flatMap fun a ha => ?_) (bal_flatMap fun a _ => bal_defs _))
    split
    · exact bal_flatMap fun d _ => bal_defs d
    · unfold sortedApps at ha
      exact bal_icmp (h a (mem_isort.1 (List.mem_filter.1 ha).1))

theorem lines_balanced {o : Output} (h1 : ∀ b ∈ o.blocks, ∀ q ∈ b.policies, ∃ t, q.thens = [t])
    (h2 : ∀ a ∈ o.apps, a.protos.length * a.types.length ≠ 8) : Balanced (lines o) := by
  have hb : Balanced (o.blocks.flatMap blockLines) := by
    refine bal_flatMap fun b hb => bal_wrap (bal_flatMap fun q hq => ?_)
    obtain ⟨t, ht⟩ := h1 b hb q hq
    exact bal_policy ht
  have := bal_append (bal_wrap (w := ["security"]) (bal_append (bal_books o.books) (bal_wrap (w := ["replace:", "policies"]) hb)))
    (bal_apps h2)
  unfold lines
  simpa using this

/-! ### entries and their terms -/

theorem types_length {t : Term} {ps : List Proto} {types : List Nat} (ht : Srx.icmpTypes t ps = .ok types) :
    types = [] ∨ (ps.length = 1 ∧ types.length = t.icmpType.length) := by
  unfold Srx.icmpTypes at ht
  obtain ⟨l, hl, ht⟩ := bind_ok ht
  cases ht
  unfold normalizeIcmpTypes at hl
  split at hl
  · cases hl; exact .inl rfl
  · split at hl
    · cases hl
    next hp =>
      right
      constructor
      · have : ps.map Proto.text = ["icmp"] ∨ ps.map Proto.text = ["icmpv6"] := by
          rw [Classical.not_and_iff_not_or_not, Classical.not_not, Classical.not_not] at hp
          exact hp
        rcases this with h | h
        · have := congrArg List.length h
          simpa using this
        · have := congrArg List.length h
          simpa using this
      · split at hl
        · cases hl
        next n _ =>
          unfold Aclgenerator.icmpNumbers at hl
          split at hl
          · cases hl
          · split at hl
            · cases hl
            next hk =>
              cases hl
              rw [List.filterMap_map]
              have : (id ∘ some : Nat → Option Nat) = some := rfl
              rw [this, List.filterMap_some, (isort_perm _ _).length_eq]
              have hk : ∀ x ∈ t.icmpType, ((icmpTable n).lookup x).isSome := by
                intro x hx
                cases hs : (icmpTable n).lookup x with
                | none => exact absurd (List.any_eq_true.2 ⟨x, hx, by rw [hs]; rfl⟩) hk
                | some _ => rfl
              clear hp
              generalize t.icmpType = l at hk
              induction l with
              | nil => rfl
              | cons x l ih =>
                obtain ⟨k, e⟩ := Option.isSome_iff_exists.1 (hk x (by simp))
                rw [List.filterMap_cons, e, List.length_cons, List.length_cons, ih fun y hy => hk y (List.mem_cons_of_mem _ hy)]

/-- Every entry is for a live term of the policy. -/
def Backed (fs : List Filter) (a : App) : Prop :=
  ∃ f ∈ fs, ∃ g ∈ f.terms, Live g ∧ a.timeout = g.timeout ∧ a.sport = g.term.sourcePort ∧ a.dport = g.term.destinationPort ∧
    ∃ ps types, a.protos = appProtos ps ∧ a.types = types ∧ termProtocols (g.term.protocol.map .str) = .ok ps ∧
      Srx.icmpTypes g.term ps = .ok types

theorem placeApp_mem {a : App} : ∀ {l : List App} {q : Str × List App}, placeApp a l = .ok q → ∀ s ∈ q.2, s ∈ l ∨ s = a
  | [], q, h, s, hs => by cases h; exact .inr (List.mem_singleton.1 hs)
  | b :: l, q, h, s, hs => by
    rw [placeApp] at h
    split at h
    · cases h; exact .inl hs
    · split at h
      · cases h
      · obtain ⟨q', hq, h⟩ := bind_ok h
        cases h
        rcases List.mem_cons.1 hs with rfl | hs
        · exact .inl (by simp)
        · exact (placeApp_mem hq s hs).imp (List.mem_cons_of_mem _) id

theorem step_backed {fs : List Filter} {f : Filter} {g g' : STerm} {st : State} {r : State × Option SPolicy} {af : String} {glob : Bool}
    {name : Str} (hf : f ∈ fs) (hg : g ∈ f.terms) (hpart : SrxPartOf g g') (hl : Live g') (hst : ∀ a ∈ st.apps, Backed fs a)
    (h : step glob af f st g' name = .ok r) : ∀ a ∈ r.1.apps, Backed fs a := by
  unfold step at h
  obtain ⟨src, _, h⟩ := bind_ok h
  obtain ⟨dst, _, h⟩ := bind_ok h
  revert h
  generalize (if glob = true then alias st.books src else src) = S
  generalize (if glob = true then alias st.books dst else dst) = D
  intro h
  unfold finish at h
  split at h
  · cases h; exact hst
  · split at h
    · cases h; exact hst
    · obtain ⟨ps, hps, h⟩ := bind_ok h
      obtain ⟨types, ht, h⟩ := bind_ok h
      obtain ⟨q, hq, h⟩ := bind_ok h
      obtain ⟨pol, hpol, h⟩ := bind_ok h
      cases h
      intro a ha
      rcases placeApp_mem hq a ha with ha | rfl
      · exact hst a ha
      · refine ⟨f, hf, g, hg, ?_⟩
        rcases hpart with rfl | ⟨s, d, i, rfl⟩
        · exact ⟨hl, rfl, rfl, rfl, ps, types, rfl, rfl, hps, ht⟩
        · exact ⟨hl, rfl, rfl, rfl, ps, types, rfl, rfl, hps, ht⟩

theorem termsLoop_backed {fs : List Filter} {f : Filter} {af : String} {glob : Bool} (hf : f ∈ fs) : ∀ (gs : List STerm) {names : List Str}
    {st : State} {r : State × List SPolicy}, (∀ g' ∈ gs, ∃ g ∈ f.terms, SrxPartOf g g') → (∀ a ∈ st.apps, Backed fs a) →
    termsLoop glob af f names st gs = .ok r → ∀ a ∈ r.1.apps, Backed fs a
  | [], names, st, r, _, hst, h => by cases h; exact hst
  | g' :: gs, names, st, r, hg, hst, h => by
    have hg2 : ∀ g' ∈ gs, ∃ g ∈ f.terms, SrxPartOf g g' := fun g h => hg g (List.mem_cons_of_mem _ h)
    rw [termsLoop] at h
    split at h
    · exact termsLoop_backed hf gs hg2 hst h
    next hs =>
      obtain ⟨name, hn, h⟩ := bind_ok h
      split at h
      · cases h
      · split at h
        · exact termsLoop_backed hf gs hg2 hst h
        next he =>
          obtain ⟨x, hx, h⟩ := bind_ok h
          obtain ⟨q, hq, h⟩ := bind_ok h
          cases h
          have hl : Live g' := (srx_skipped (by simpa using he)).1 (by simpa using hs)
          obtain ⟨g, hg1, hpart⟩ := hg g' (by simp)
          have := termsLoop_backed hf gs hg2 (step_backed hf hg1 hpart hl hst hx) hq
          exact this

theorem translate_backed {fs : List Filter} : ∀ (fs' : List Filter) {mode : Option Bool} {st : State}
    {r : Option Bool × State × List Srx.Block}, (∀ f ∈ fs', f ∈ fs) → (∀ a ∈ st.apps, Backed fs a) →
    translate mode st fs' = .ok r → ∀ a ∈ r.2.1.apps, Backed fs a
  | [], mode, st, r, _, hst, h => by cases h; exact hst
  | f :: fs', mode, st, r, hf, hst, h => by
    rw [translate] at h
    obtain ⟨glob, hb, h⟩ := bind_ok h
    obtain ⟨_, hz, h⟩ := bind_ok h
    obtain ⟨af, haf, h⟩ := bind_ok h
    obtain ⟨x, hx, h⟩ := bind_ok h
    obtain ⟨q, hq, h⟩ := bind_ok h
    cases h
    have := translate_backed fs' (fun f h => hf f (List.mem_cons_of_mem _ h))
      (termsLoop_backed (hf f (by simp)) _ (fun g' hg' => fixLarge_part hg') hst hx) hq
    exact this

theorem output_backed {fs : List Filter} {o : Output} (h : output fs = .ok o) : ∀ a ∈ o.apps, Backed fs a := by
  unfold output at h
  obtain ⟨r, hr, h⟩ := bind_ok h
  cases h
  have h0 : ∀ a ∈ ({} : State).apps, Backed fs a := fun _ h => by cases h
  exact translate_backed fs (fun _ h => h) h0 hr

theorem thens_one {g : STerm} {l : List Then} {on : Bool} {w : String} (ha : g.term.action = [w])
    (h : listM (thenOf g) (express on g.term.action) = .ok l) :
    ∃ t, l = [t] ∧ thenOf g (if on ∧ w = "accept" then "expresspath" else w) = .ok t := by
  have e : express on g.term.action = [if on ∧ w = "accept" then "expresspath" else w] := by
    rw [ha]
    unfold express
    cases on <;> simp
  rw [e] at h
  generalize (if on = true ∧ w = "accept" then "expresspath" else w) = u at h ⊢
  unfold listM listM at h
  obtain ⟨t, h1, h⟩ := bind_ok h
  obtain ⟨m, h2, h⟩ := bind_ok h
  cases h2
  cases h
  exact ⟨t, rfl, h1⟩

/-- C99: every block of the output is closed, if every live term has one action and not exactly eight ICMP types. -/
theorem C99_balanced_partial {fs : List Filter} {o : Output} (h : output fs = .ok o)
    (one : ∀ f ∈ fs, ∀ g ∈ f.terms, Live g → ∃ w, g.term.action = [w])
    (eight : ∀ f ∈ fs, ∀ g ∈ f.terms, Live g → g.term.icmpType.length ≠ 8) : Balanced (lines o) := by
  refine lines_balanced ?_ ?_
  · obtain ⟨_, st, _, _, _, hm⟩ := output_made h
    intro b hb q hq
    obtain ⟨f, hf, _, _, _, _, hp⟩ := hm b hb
    obtain ⟨g, hg, g', hpart, made⟩ := hp q hq
    have hl := made.live
    have : ∃ w, g'.term.action = [w] := by
      rcases hpart with rfl | ⟨s, d, i, rfl⟩
      · exact one f hf _ hg hl
      · exact one f hf g hg hl
    obtain ⟨w, hw⟩ := this
    obtain ⟨t, ht, _⟩ := thens_one hw made.thens
    exact ⟨t, ht⟩
  · intro a ha
    obtain ⟨f, hf, g, hg, hl, _, _, _, ps, types, e1, e2, _, ht⟩ := output_backed h a ha
    rw [e1, e2]
    rcases types_length ht with h0 | ⟨h1, h2⟩
    · rw [h0]; simp
    · unfold appProtos
      rw [List.length_replace, h1, h2]
      have := eight f hf g hg hl
      omega

/-! ### C101 -/

/-- What the firewall is to log for an action: permitted sessions when they end, others when they begin. -/
def LogsAt (action : String) (logging : List String) (s : String) : Prop :=
  ("log-both" ∈ logging ∧ s ∈ ["session-init", "session-close"]) ∨
  ((∃ l ∈ logging, l ≠ "log-both") ∧ s = (if action = "accept" then "session-close" else "session-init"))

theorem logsOf_spec {action : String} {logging : List String} {s : String} : s ∈ logsOf action logging ↔ LogsAt action logging s := by
  unfold logsOf LogsAt
  rw [List.mem_flatMap]
  constructor
  · rintro ⟨l, hl, hs⟩
    split at hs
    next e => subst e; exact .inl ⟨hl, hs⟩
    next e =>
      refine .inr ⟨⟨l, hl, e⟩, ?_⟩
      split at hs
      next h => rw [if_pos h]; exact List.mem_singleton.1 hs
      next h => rw [if_neg h]; exact List.mem_singleton.1 hs
  · rintro (⟨hl, hs⟩ | ⟨⟨l, hl, e⟩, hs⟩)
    · exact ⟨_, hl, by rw [if_pos rfl]; exact hs⟩
    · refine ⟨l, hl, ?_⟩
      rw [if_neg e, hs]
      split <;> simp

/-- C101: what the policy for a term does besides permitting or denying is what the term says: tunnel, DSCP, log, count.
Without `expresspath`; with it, see the refutation. -/
theorem C101_then_partial {fs : List Filter} {o : Output} (h : output fs = .ok o) {b : Srx.Block} (hb : b ∈ o.blocks) {q : SPolicy}
    (hq : q ∈ b.policies) :
    ∃ f ∈ fs, b.fromZone = f.fromZone ∧ b.toZone = f.toZone ∧ ∃ g ∈ f.terms, Live g ∧
      (q.name = g.term.name ∨ ∃ i : Nat, q.name = g.term.name ++ '_' :: (toString i).toList) ∧
      ∀ w, g.term.action = [w] → ∃ t, q.thens = [t] ∧ t.count = g.counter ∧ t.dscpSet = g.dscpSet ∧
        ("expresspath" ∉ f.options → t.vpn = (if w = "accept" then g.vpn else none) ∧
          ∀ s, s ∈ t.logs ↔ LogsAt w g.term.logging s) := by
  obtain ⟨_, st, _, _, _, hm⟩ := output_made h
  obtain ⟨f, hf, e1, e2, _, _, hp⟩ := hm b hb
  obtain ⟨g, hg, g', hpart, made⟩ := hp q hq
  have key : ∀ w, g'.term.action = [w] → ∃ t, q.thens = [t] ∧ t.count = g'.counter ∧ t.dscpSet = g'.dscpSet ∧
      ("expresspath" ∉ f.options → t.vpn = (if w = "accept" then g'.vpn else none) ∧
        ∀ s, s ∈ t.logs ↔ LogsAt w g'.term.logging s) := by
    intro w hw
    obtain ⟨t, ht, hthen⟩ := thens_one hw made.thens
    refine ⟨t, ht, ?_⟩
    unfold thenOf at hthen
    split at hthen
    · cases hthen
    · cases hthen
      refine ⟨rfl, rfl, fun hx => ?_⟩
      have e : f.options.contains "expresspath" = false := by simpa using hx
      have e3 : (if f.options.contains "expresspath" = true ∧ w = "accept" then "expresspath" else w) = w := by
        rw [e]; simp
      dsimp only
      rw [e3]
      exact ⟨rfl, fun s => logsOf_spec⟩
  refine ⟨f, hf, e1, e2, g, hg, ?_⟩
  have hl := made.live
  rcases hpart with rfl | ⟨s, d, i, rfl⟩
  · exact ⟨hl, .inl made.name, key⟩
  · exact ⟨hl, .inr ⟨i, made.name⟩, key⟩

end Verif.Props
