import Verif.Lemmas.IptablesTerm

/-!
Lemmas about the chains of an iptables rule set.
-/

namespace Verif
namespace Iptables
open Policy Aclgenerator Nacaddr Spec Spec.Nf

theorem rulesOf_append (a b : List Line) (c : Str) : rulesOf (a ++ b) c = rulesOf a c ++ rulesOf b c := by
  unfold rulesOf; rw [List.filterMap_append]

theorem created_append (a b : List Line) : created (a ++ b) = created a ++ created b := by
  unfold created; rw [List.filterMap_append]

theorem mem_created {ls : List Line} {c : Str} : c ∈ created ls ↔ .newChain c ∈ ls := by
  unfold created
  rw [List.mem_filterMap]
  constructor
  · rintro ⟨l, hl, h⟩
    cases l with
    | newChain d => simp at h; exact h ▸ hl
    | _ => simp at h
  · intro h
    exact ⟨_, h, rfl⟩

theorem rulesOf_nil {ls : List Line} {c : Str} (h : ∀ args, Line.rule c args ∉ ls) : rulesOf ls c = [] := by
  unfold rulesOf
  rw [List.filterMap_eq_nil_iff]
  intro l hl
  cases l with
  | rule d args =>
    by_cases hd : d = c
    · subst hd; exact absurd hl (h args)
    · simp [hd]
  | _ => rfl

/-! ### where rules go -/

theorem portRule_top {x : Ctx} {proto : String} {flags src dst action : List Arg} {st : PState} {sp dp : PortVar} :
    ∀ l ∈ (portRule x proto flags src dst action st sp dp).2, ∃ args, l = .rule x.top args := by
  intro l hl
  unfold portRule at hl
  dsimp only at hl
  rcases List.mem_append.1 hl with hl | hl
  · split at hl
    · exact ⟨_, List.mem_singleton.1 hl⟩
    · cases hl
  · exact ⟨_, List.mem_singleton.1 hl⟩

theorem dportLoop_top {x : Ctx} {proto : String} {flags src dst action : List Arg} (dps : List PortVar) :
    ∀ {sp : PortVar} {st : PState}, ∀ l ∈ (dportLoop x proto flags src dst action sp dps st).2, ∃ args, l = .rule x.top args := by
  induction dps with
  | nil => intro sp st l hl; cases hl
  | cons dp dps ih =>
    intro sp st l hl
    rw [dportLoop] at hl
    dsimp only at hl
    rcases List.mem_append.1 hl with hl | hl
    · exact portRule_top l hl
    · exact ih l hl

theorem sportLoop_top {x : Ctx} {proto : String} {flags src dst action : List Arg} (sps dps : List PortVar) :
    ∀ {st : PState}, ∀ l ∈ (sportLoop x proto flags src dst action sps dps st).2, ∃ args, l = .rule x.top args := by
  induction sps with
  | nil => intro st l hl; cases hl
  | cons sp sps ih =>
    intro st l hl
    rw [sportLoop] at hl
    dsimp only at hl
    rcases List.mem_append.1 hl with hl | hl
    · exact dportLoop_top dps l hl
    · exact ih l hl

theorem formatPart_top {x : Ctx} {proto : String} {saddr daddr : Option Net} {sport dport : List PortRange}
    {options : List (List Arg)} {tf : List String} {itype code : Option Nat} {track : List String × List String}
    {action : List Arg} :
    ∀ l ∈ (formatPart x proto saddr sport daddr dport options tf itype code track action).2, ∃ args, l = .rule x.top args :=
  sportLoop_top _ _

theorem comboRules_top {x : Ctx} {t : Term} {tf : List String} {action : List Arg} (cs : List Combo) :
    ∀ {opts : List (List Arg)}, ∀ l ∈ (comboRules x t tf action cs opts).2, ∃ args, l = .rule x.top args := by
  induction cs with
  | nil => intro opts l hl; cases hl
  | cons c cs ih =>
    intro opts l hl
    obtain ⟨s, d, i, co, q, k⟩ := c
    rw [comboRules] at hl
    dsimp only at hl
    rcases List.mem_append.1 hl with hl | hl
    · exact formatPart_top l hl
    · exact ih l hl

theorem excludeRules_top {x : Ctx} {s d : Side} : ∀ l ∈ excludeRules x s d, ∃ args, l = .rule x.top args := by
  intro l hl
  unfold excludeRules at hl
  dsimp only at hl
  rcases List.mem_append.1 hl with hl | hl
  · obtain ⟨n, _, hl⟩ := List.mem_flatMap.1 hl
    exact formatPart_top (x := { x with log := false, sint := none, dint := none }) l hl
  · obtain ⟨n, _, hl⟩ := List.mem_flatMap.1 hl
    exact formatPart_top (x := { x with log := false, sint := none, dint := none }) l hl

/-- The lines of a term: verbatim text, or the head, rules of its chain and the tail. -/
theorem renderTerm_shape {c : Cls} {filter : Str} {track : Bool} {af : Ver} {r : ITerm} {q : Printed}
    (h : renderTerm c filter track af r = .ok q) :
    (∀ l ∈ q.lines, ∃ s, l = .raw s) ∨
    ∃ mid, q.lines = headLines c filter r.term.name ++ (mid ++ tailLines c filter r.term.name) ∧
      ∀ l ∈ mid, ∃ args, l = .rule (if c.inFilter then filter else chainName filter r.term.name) args := by
  unfold renderTerm at h
  obtain ⟨ps, _, h⟩ := bind_ok h
  unfold printTerm at h
  split at h
  · cases h; left; intro l hl; cases hl
  split at h
  · cases h; left; intro l hl; cases hl
  split at h
  · cases h
    left
    intro l hl
    obtain ⟨v, _, rfl⟩ := List.mem_map.1 hl
    exact ⟨_, rfl⟩
  split at h
  · cases h
  split at h
  · split at h
    · cases h; left; intro l hl; cases hl
    · cases h
  split at h
  · cases h; left; intro l hl; cases hl
  obtain ⟨ad, had, h⟩ := bind_ok h
  unfold body at h
  split at h
  · cases h; left; intro l hl; cases hl
  · obtain ⟨_, _, h⟩ := bind_ok h
    obtain ⟨_, _, h⟩ := bind_ok h
    dsimp only at h
    split at h
    · cases h
    · cases h
      right
      refine ⟨_, by rw [List.append_assoc], ?_⟩
      intro l hl
      rcases List.mem_append.1 hl with hl | hl
      · exact excludeRules_top l hl
      · exact comboRules_top _ l hl

/-- The chains of the terms are not built-in. -/
theorem chainName_builtin (filter name : Str) : chainName filter name ∉ builtin := by
  have key : ∀ b ∈ builtin, ∃ x y rest, b = x :: y :: rest ∧ x ≠ '_' ∧ y ≠ '_' := by
    intro b hb
    simp only [builtin, List.mem_cons, List.not_mem_nil, or_false] at hb
    rcases hb with rfl | rfl | rfl <;> exact ⟨_, _, _, rfl, by decide, by decide⟩
  intro h
  obtain ⟨x, y, rest, h1, h2, h3⟩ := key _ h
  unfold chainName at h1
  cases filter with
  | nil =>
    simp only [List.take_nil, List.nil_append, List.cons.injEq] at h1
    exact h2 h1.1.symm
  | cons z zs =>
    simp only [List.take_succ_cons, List.take_zero, List.cons_append, List.nil_append, List.cons.injEq] at h1
    exact h3 h1.2.1.symm

/-- A block of lines whose rules go to the named chains or to chains it creates; it creates no built-in chain. -/
structure Owned (names : List Str) (ls : List Line) : Prop where
  rules : ∀ d args, .rule d args ∈ ls → d ∈ names ∨ d ∈ created ls
  fresh : ∀ d ∈ created ls, d ∉ builtin

theorem owned_nil {names : List Str} : Owned names [] := ⟨(by intro _ _ h; cases h), (by intro _ h; cases h)⟩

theorem owned_append {n m : List Str} {a b : List Line} (h : Owned n a) (k : Owned m b) : Owned (n ++ m) (a ++ b) := by
  refine ⟨fun d args hm => ?_, fun d hd => ?_⟩
  · rw [created_append]
    rcases List.mem_append.1 hm with hm | hm
    · rcases h.rules d args hm with h | h
      · exact .inl (List.mem_append_left _ h)
      · exact .inr (List.mem_append_left _ h)
    · rcases k.rules d args hm with h | h
      · exact .inl (List.mem_append_right _ h)
      · exact .inr (List.mem_append_right _ h)
  · rw [created_append] at hd
    rcases List.mem_append.1 hd with hd | hd
    · exact h.fresh d hd
    · exact k.fresh d hd

theorem owned_mono {n m : List Str} {a : List Line} (h : Owned n a) (hs : ∀ x ∈ n, x ∈ m) : Owned m a :=
  ⟨fun d args hm => (h.rules d args hm).imp (hs d) id, h.fresh⟩

theorem renderTerm_owned {c : Cls} (hc : c = iptables ∨ c = speedway) {filter : Str} {track : Bool} {af : Ver} {r : ITerm}
    {q : Printed} (h : renderTerm c filter track af r = .ok q) :
    Owned [filter] q.lines ∧ (created q.lines = [] ∧ (∀ d args, .rule d args ∉ q.lines) ∨
      created q.lines = [chainName filter r.term.name]) := by
  rcases renderTerm_shape h with h0 | ⟨mid, hl, hm⟩
  · have hno : ∀ d args, .rule d args ∉ q.lines := by
      intro d args hm
      obtain ⟨s, hs⟩ := h0 _ hm
      cases hs
    have hcr : created q.lines = [] := by
      rw [List.eq_nil_iff_forall_not_mem]
      intro d hd
      obtain ⟨s, hs⟩ := h0 _ (mem_created.1 hd)
      cases hs
    refine ⟨⟨fun d args hm => absurd hm (hno d args), fun d hd => ?_⟩, .inl ⟨hcr, hno⟩⟩
    rw [hcr] at hd; cases hd
  · have hin : c.inFilter = false := by rcases hc with rfl | rfl <;> rfl
    rw [hin] at hm
    simp only [Bool.false_eq_true, if_false] at hm
    have hcm : created mid = [] := by
      rw [List.eq_nil_iff_forall_not_mem]
      intro d hd
      obtain ⟨s, hs⟩ := hm _ (mem_created.1 hd)
      cases hs
    have hcr : created q.lines = [chainName filter r.term.name] := by
      rw [hl, created_append, created_append, hcm]
      rcases hc with rfl | rfl <;> rfl
    refine ⟨⟨fun d args h => ?_, fun d hd => ?_⟩, .inr hcr⟩
    · rw [hcr]
      rw [hl] at h
      rcases List.mem_append.1 h with h | h
      · rcases hc with rfl | rfl <;> simp [headLines, iptables, speedway] at h
        exact .inl (List.mem_singleton.2 h.1)
      · rcases List.mem_append.1 h with h | h
        · obtain ⟨args', he⟩ := hm _ h
          cases he
          exact .inr (List.mem_singleton.2 rfl)
        · rcases hc with rfl | rfl <;> simp [tailLines, iptables, speedway] at h
          exact .inl (List.mem_singleton.2 h.1)
    · rw [hcr] at hd
      rw [List.mem_singleton.1 hd]
      exact chainName_builtin _ _

theorem filterHead_spec (c : Cls) (o : Out) : Owned [o.name] (filterHead c o) ∧
    (o.name ∈ builtin ∨ created (filterHead c o) = [o.name]) ∧ ∀ d args, .rule d args ∉ filterHead c o := by
  unfold filterHead
  split
  next hb =>
    have hbi : o.name ∈ builtin := by
      unfold builtin
      rcases hb with h | h | h <;> rw [h] <;> simp
    have : ∀ l : List Line, (∀ x ∈ l, ∃ a b, x = .policy a b) → Owned [o.name] l ∧ ∀ d args, .rule d args ∉ l := by
      intro l hl
      have hno : ∀ d args, .rule d args ∉ l := by
        intro d args hm
        obtain ⟨_, _, h⟩ := hl _ hm
        cases h
      refine ⟨⟨fun d args hm => absurd hm (hno d args), fun d hd => ?_⟩, hno⟩
      obtain ⟨_, _, h⟩ := hl _ (mem_created.1 hd)
      cases h
    have hp : ∀ x ∈ (match o.default with
        | some d => [Line.policy o.name d]
        | none => if c.platform = "speedway" then [.policy o.name "DROP"] else []), ∃ a b, x = .policy a b := by
      intro x hx
      split at hx
      · exact ⟨_, _, List.mem_singleton.1 hx⟩
      · split at hx
        · exact ⟨_, _, List.mem_singleton.1 hx⟩
        · cases hx
    exact ⟨(this _ hp).1, .inl hbi, (this _ hp).2⟩
  next hb =>
    refine ⟨⟨fun d args h => ?_, fun d hd => ?_⟩, .inr rfl, fun d args h => ?_⟩
    · have := List.mem_singleton.1 h; cases this
    · have : d = o.name := by simpa [created] using hd
      rw [this]
      unfold builtin
      simp only [List.mem_cons, List.not_mem_nil, or_false]
      exact hb
    · have := List.mem_singleton.1 h; cases this

theorem terms_owned {c : Cls} (hc : c = iptables ∨ c = speedway) {filter : Str} {track : Bool} {af : Ver} (ts : List ITerm) :
    ∀ {qs : List Printed}, listM (renderTerm c filter track af) ts = .ok qs → Owned [filter] (qs.flatMap Printed.lines) := by
  induction ts with
  | nil => intro qs h; cases h; exact owned_nil
  | cons r rs ih =>
    intro qs h
    rw [listM] at h
    obtain ⟨q, h1, h⟩ := bind_ok h
    obtain ⟨qs', h2, h⟩ := bind_ok h
    cases h
    rw [List.flatMap_cons]
    exact owned_mono (owned_append (renderTerm_owned hc h1).1 (ih h2)) (by simp)

theorem printFilter_owned {c : Cls} (hc : c = iptables ∨ c = speedway) {o : Out} {x : List Line × List IpSet}
    (h : printFilter c o = .ok x) : Owned [o.name] x.1 ∧ (o.name ∈ builtin ∨ o.name ∈ created x.1) := by
  unfold printFilter filterTerms at h
  obtain ⟨qs, h1, h⟩ := bind_ok h
  cases h
  dsimp only
  obtain ⟨f1, f2, _⟩ := filterHead_spec c o
  refine ⟨owned_mono (owned_append f1 (terms_owned hc _ h1)) (by simp), ?_⟩
  rcases f2 with h | h
  · exact .inl h
  · right
    rw [created_append, h]
    simp

theorem filters_owned {c : Cls} (hc : c = iptables ∨ c = speedway) (os : List Out) :
    ∀ {rs : List (List Line × List IpSet)}, listM (printFilter c) os = .ok rs →
      Owned (os.map Out.name) (rs.flatMap Prod.fst) ∧ ∀ o ∈ os, o.name ∈ builtin ∨ o.name ∈ created (rs.flatMap Prod.fst) := by
  induction os with
  | nil => intro rs h; cases h; exact ⟨owned_nil, by simp⟩
  | cons o os ih =>
    intro rs h
    rw [listM] at h
    obtain ⟨x, h1, h⟩ := bind_ok h
    obtain ⟨rs', h2, h⟩ := bind_ok h
    cases h
    rw [List.flatMap_cons, List.map_cons]
    obtain ⟨p1, p2⟩ := printFilter_owned hc h1
    obtain ⟨i1, i2⟩ := ih h2
    refine ⟨owned_append p1 i1, ?_⟩
    intro o' ho'
    rw [created_append]
    rcases List.mem_cons.1 ho' with rfl | ho'
    · exact p2.imp id (List.mem_append_left _)
    · exact (i2 o' ho').imp id (List.mem_append_right _)

theorem listM_append {α β : Type} {f : α → Except Err β} (a b : List α) : ∀ {r : List β}, listM f (a ++ b) = .ok r →
    ∃ r1 r2, r = r1 ++ r2 ∧ listM f a = .ok r1 ∧ listM f b = .ok r2 := by
  induction a with
  | nil => intro r h; exact ⟨[], r, rfl, rfl, h⟩
  | cons x a ih =>
    intro r h
    rw [List.cons_append, listM] at h
    obtain ⟨y, h1, h⟩ := bind_ok h
    obtain ⟨ys, h2, h⟩ := bind_ok h
    cases h
    obtain ⟨r1, r2, rfl, h3, h4⟩ := ih h2
    exact ⟨y :: r1, r2, rfl, by rw [listM, h1, h3]; rfl, h4⟩

/-- A block that owns nothing of a chain has no rules in it. -/
theorem Owned.none {names : List Str} {ls : List Line} (h : Owned names ls) {d : Str} (h1 : d ∉ names)
    (h2 : d ∉ created ls) : rulesOf ls d = [] :=
  rulesOf_nil fun args hm => (h.rules d args hm).elim h1 h2

/-- The rules of a filter and of the chains of its terms are found in its own lines only. -/
theorem chains_local {c : Cls} (hc : c = iptables ∨ c = speedway) {pre post : List Out} {o : Out}
    {rs : List (List Line × List IpSet)} (h : listM (printFilter c) (pre ++ o :: post) = .ok rs)
    (hn : ((pre ++ o :: post).map Out.name).Nodup) (hcr : (created (rs.flatMap Prod.fst)).Nodup) :
    ∃ qs, filterTerms c o = .ok qs ∧ rulesOf (rs.flatMap Prod.fst) o.name = rulesOf (qs.flatMap Printed.lines) o.name ∧
      ∀ (ts us : List ITerm) (r : ITerm) (qa qb : List Printed) (q : Printed), o.terms = ts ++ r :: us → qs = qa ++ q :: qb →
        listM (renderTerm c o.name o.stateful o.af) ts = .ok qa → renderTerm c o.name o.stateful o.af r = .ok q →
        listM (renderTerm c o.name o.stateful o.af) us = .ok qb → created q.lines ≠ [] →
        o.name ≠ chainName o.name r.term.name ∧
        rulesOf (rs.flatMap Prod.fst) (chainName o.name r.term.name) = rulesOf q.lines (chainName o.name r.term.name) := by
  obtain ⟨r1, r2, rfl, h1, h2⟩ := listM_append _ _ h
  rw [listM] at h2
  obtain ⟨x, h3, h2⟩ := bind_ok h2
  obtain ⟨r3, h4, h2⟩ := bind_ok h2
  cases h2
  obtain ⟨pf1, pf2⟩ := printFilter_owned hc h3
  have h3' := h3
  unfold printFilter at h3
  obtain ⟨qs, h5, h3⟩ := bind_ok h3
  cases h3
  obtain ⟨o1, c1⟩ := filters_owned hc _ h1
  obtain ⟨o3, c3⟩ := filters_owned hc _ h4
  obtain ⟨fh1, fh2, fh3⟩ := filterHead_spec c o
  rw [List.flatMap_append, List.flatMap_cons] at hcr ⊢
  dsimp only at hcr pf1 pf2 ⊢
  rw [List.map_append, List.map_cons, List.nodup_append] at hn
  obtain ⟨hn1, hn2, hn3⟩ := hn
  rw [List.nodup_cons] at hn2
  refine ⟨qs, h5, ?_, ?_⟩
  · rw [created_append, created_append, List.nodup_append, List.nodup_append] at hcr
    obtain ⟨_, ⟨_, _, d2⟩, d1⟩ := hcr
    have x1 : o.name ∉ created (r1.flatMap Prod.fst) := by
      intro hm
      rcases pf2 with hb | hb
      · exact o1.fresh _ hm hb
      · exact d1 _ hm _ (List.mem_append_left _ hb) rfl
    have x3 : o.name ∉ created (r3.flatMap Prod.fst) := by
      intro hm
      rcases pf2 with hb | hb
      · exact o3.fresh _ hm hb
      · exact d2 _ hb _ hm rfl
    rw [rulesOf_append, rulesOf_append, rulesOf_append,
      o1.none (fun hm => hn3 _ hm _ List.mem_cons_self rfl) x1, o3.none hn2.1 x3,
      rulesOf_nil (fun args => fh3 o.name args), List.nil_append, List.nil_append, List.append_nil]
  · intro ts us r qa qb q hts hqs k1 k2 k3 hne
    obtain ⟨w1, w2⟩ := renderTerm_owned hc k2
    have hq : created q.lines = [chainName o.name r.term.name] := by
      rcases w2 with ⟨h, _⟩ | h
      · exact absurd h hne
      · exact h
    have oa := terms_owned hc _ k1
    have ob := terms_owned hc _ k3
    subst hqs
    have hsplit : r1.flatMap Prod.fst ++ (filterHead c o ++ (qa ++ q :: qb).flatMap Printed.lines ++ r3.flatMap Prod.fst) =
        (r1.flatMap Prod.fst ++ (filterHead c o ++ qa.flatMap Printed.lines)) ++
          (q.lines ++ (qb.flatMap Printed.lines ++ r3.flatMap Prod.fst)) := by
      simp only [List.flatMap_append, List.flatMap_cons, List.append_assoc]
    rw [hsplit] at hcr ⊢
    have hA : Owned (pre.map Out.name ++ ([o.name] ++ [o.name]))
        (r1.flatMap Prod.fst ++ (filterHead c o ++ qa.flatMap Printed.lines)) := owned_append o1 (owned_append fh1 oa)
    have hB : Owned ([o.name] ++ post.map Out.name) (qb.flatMap Printed.lines ++ r3.flatMap Prod.fst) := owned_append ob o3
    rw [created_append, List.nodup_append, created_append q.lines, List.nodup_append, hq] at hcr
    obtain ⟨_, ⟨_, _, d2⟩, d1⟩ := hcr
    have xa : chainName o.name r.term.name ∉ created (r1.flatMap Prod.fst ++ (filterHead c o ++ qa.flatMap Printed.lines)) :=
      fun hm => d1 _ hm _ (List.mem_append_left _ (List.mem_singleton.2 rfl)) rfl
    have xb : chainName o.name r.term.name ∉ created (qb.flatMap Printed.lines ++ r3.flatMap Prod.fst) :=
      fun hm => d2 _ (List.mem_singleton.2 rfl) _ hm rfl
    have ho : o.name ≠ chainName o.name r.term.name := by
      intro he
      rcases fh2 with hb | hb
      · exact chainName_builtin _ _ (he ▸ hb)
      · refine xa ?_
        rw [created_append, created_append, hb, ← he]
        simp
    have npre : chainName o.name r.term.name ∉ pre.map Out.name := by
      intro hm
      obtain ⟨g, hg, he⟩ := List.mem_map.1 hm
      rcases c1 g hg with hb | hb
      · exact chainName_builtin _ _ (he ▸ hb)
      · refine xa ?_
        rw [created_append, ← he]
        exact List.mem_append_left _ hb
    have npost : chainName o.name r.term.name ∉ post.map Out.name := by
      intro hm
      obtain ⟨g, hg, he⟩ := List.mem_map.1 hm
      rcases c3 g hg with hb | hb
      · exact chainName_builtin _ _ (he ▸ hb)
      · refine xb ?_
        rw [created_append, ← he]
        exact List.mem_append_right _ hb
    refine ⟨ho, ?_⟩
    rw [rulesOf_append, hA.none _ xa, rulesOf_append q.lines, hB.none _ xb, List.nil_append, List.append_nil]
    · simp only [List.mem_append, List.mem_singleton, not_or]
      exact ⟨Ne.symm ho, npost⟩
    · simp only [List.mem_append, List.mem_singleton, not_or]
      exact ⟨npre, Ne.symm ho, Ne.symm ho⟩

end Iptables
end Verif
