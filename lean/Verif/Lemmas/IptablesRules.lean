import Verif.Lemmas.Iptables

/-!
Lemmas about the rules of the iptables model: how they are read and what they match.
-/

namespace Verif
namespace Iptables
open Policy Aclgenerator Nacaddr Spec Spec.Nf

/-! ### reading -/

/-- Read in front of anything, the arguments add these matches. -/
def Seg (l : List Arg) (ms : List Match) : Prop :=
  ∀ r, parse (l ++ r) = (parse r).map fun x => (ms ++ x.1, x.2)

/-- The arguments add matches that hold for the packet exactly under the condition. -/
def Says (e : Host) (p : Packet) (l : List Arg) (φ : Prop) : Prop := ∃ ms, Seg l ms ∧ (All e p ms ↔ φ)

theorem all_append {e : Host} {p : Packet} {a b : List Match} : All e p (a ++ b) ↔ All e p a ∧ All e p b := by
  unfold All
  simp only [List.mem_append, or_imp, forall_and]

theorem all_one {e : Host} {p : Packet} {m : Match} : All e p [m] ↔ m.Holds e p := by
  unfold All; simp

theorem seg_nil : Seg [] [] := by
  intro r
  cases h : parse r <;> simp [h]

theorem seg_append {a b : List Arg} {m n : List Match} (h : Seg a m) (k : Seg b n) : Seg (a ++ b) (m ++ n) := by
  intro r
  rw [List.append_assoc, h, k]
  cases parse r <;> simp

theorem seg_of {l : List Arg} {m : Match} (h : ∀ r, parse (l ++ r) = add (some m) (parse r)) : Seg l [m] := by
  intro r
  rw [h]
  unfold add
  cases parse r <;> rfl

theorem seg_one {k : String} {x : Arg} {m : Match} (hk : k ∉ ["-j", "--syn", "-m", "--tcp-flags"])
    (h : readOne k x = some m) : Seg [.w k, x] [m] := by
  simp only [List.mem_cons, List.not_mem_nil, or_false, not_or] at hk
  refine seg_of fun r => ?_
  show parse (.w k :: x :: r) = _
  conv => lhs; rw [parse.eq_def]
  dsimp only
  rw [if_neg hk.1, if_neg hk.2.1, if_neg hk.2.2.1, if_neg hk.2.2.2, h]

theorem seg_ext {a b : String} {x : Arg} {m : Match} (h : readExt a b x = some m) (hx : ∀ n, x ≠ .name n) :
    Seg [.w "-m", .w a, .w b, x] [m] := by
  refine seg_of fun r => ?_
  show parse (.w "-m" :: .w a :: .w b :: x :: r) = _
  conv => lhs; rw [parse.eq_def]
  dsimp only
  rw [if_neg (by decide), if_neg (by decide), if_pos rfl]
  cases x with
  | name n => exact absurd rfl (hx n)
  | _ => dsimp only; rw [h]

theorem seg_set {a b d : String} {n : Str} {m : Match} (h : readSet a b n d = some m) :
    Seg [.w "-m", .w a, .w b, .name n, .w d] [m] := by
  refine seg_of fun r => ?_
  show parse (.w "-m" :: .w a :: .w b :: .name n :: .w d :: r) = _
  conv => lhs; rw [parse.eq_def]
  dsimp only
  rw [if_neg (by decide), if_neg (by decide), if_pos rfl, h]

theorem seg_syn : Seg [.w "--syn"] [.syn] := by
  refine seg_of fun r => ?_
  show parse (.w "--syn" :: r) = _
  conv => lhs; rw [parse.eq_def]
  dsimp only
  rw [if_neg (by decide), if_pos rfl]

theorem seg_flags {m s : List String} : Seg [.w "--tcp-flags", .list m, .list s] [.flags m s] := by
  refine seg_of fun r => ?_
  show parse (.w "--tcp-flags" :: .list m :: .list s :: r) = _
  conv => lhs; rw [parse.eq_def]
  dsimp only
  rw [if_neg (by decide), if_neg (by decide), if_neg (by decide), if_pos rfl]

theorem says_nil {e : Host} {p : Packet} : Says e p [] True := ⟨[], seg_nil, by simp [All]⟩

theorem says_append {e : Host} {p : Packet} {a b : List Arg} {φ ψ : Prop} (h : Says e p a φ) (k : Says e p b ψ) :
    Says e p (a ++ b) (φ ∧ ψ) := by
  obtain ⟨m, h1, h2⟩ := h
  obtain ⟨n, k1, k2⟩ := k
  exact ⟨m ++ n, seg_append h1 k1, by rw [all_append, h2, k2]⟩

theorem Says.congr {e : Host} {p : Packet} {a : List Arg} {φ ψ : Prop} (h : Says e p a φ) (k : φ ↔ ψ) :
    Says e p a ψ := by
  obtain ⟨m, h1, h2⟩ := h
  exact ⟨m, h1, h2.trans k⟩

theorem says_of {e : Host} {p : Packet} {a : List Arg} {m : Match} (h : Seg a [m]) : Says e p a (m.Holds e p) :=
  ⟨[m], h, all_one⟩

/-- The arguments of a target are read as it. -/
def Reads (l : List Arg) (t : Target) : Prop := parse l = some ([], t)

theorem actionArgs_reads {af : Ver} {a : String} {l : List Arg} (h : actionArgs af a = some l) :
    ∃ t v, Reads l t ∧ Asks a v ∧ t ≠ .log ∧ (∀ c, t ≠ .jump c) ∧ (t = .ret ∨ ∃ w, t.verdict = some w) ∧
      v = t.verdict ∧ (a = "next" ↔ t = .ret) := by
  unfold actionArgs at h
  split at h
  · cases h; exact ⟨.accept, _, rfl, rfl, by decide, by simp, .inr ⟨_, rfl⟩, rfl, by decide⟩
  · cases h; exact ⟨.drop, _, rfl, rfl, by decide, by simp, .inr ⟨_, rfl⟩, rfl, by decide⟩
  · cases h; exact ⟨.reject, _, rfl, rfl, by decide, by simp, .inr ⟨_, rfl⟩, rfl, by decide⟩
  · cases h; exact ⟨.reject, _, rfl, rfl, by decide, by simp, .inr ⟨_, rfl⟩, rfl, by decide⟩
  · cases h; exact ⟨.ret, _, rfl, rfl, by decide, by simp, .inl rfl, rfl, by decide⟩
  · cases h

/-! ### blocks of rules with one target -/

/-- All lines are rules of the chain with the target (or log rules), and one of them matches exactly under the
condition. -/
structure Acts (e : Host) (p : Packet) (top : Str) (t : Target) (φ : Prop) (ls : List Line) : Prop where
  form : ∀ l ∈ ls, ∃ args ms u, l = .rule top args ∧ parse args = some (ms, u) ∧ (u = .log ∨ u = t)
  hit : (∃ args ms, Line.rule top args ∈ ls ∧ parse args = some (ms, t) ∧ All e p ms) ↔ φ

theorem acts_nil {e : Host} {p : Packet} {top : Str} {t : Target} : Acts e p top t False [] :=
  ⟨by simp, by simp⟩

theorem Acts.congr {e : Host} {p : Packet} {top : Str} {t : Target} {φ ψ : Prop} {ls : List Line}
    (h : Acts e p top t φ ls) (k : φ ↔ ψ) : Acts e p top t ψ ls := ⟨h.form, h.hit.trans k⟩

theorem acts_append {e : Host} {p : Packet} {top : Str} {t : Target} {φ ψ : Prop} {a b : List Line}
    (h : Acts e p top t φ a) (k : Acts e p top t ψ b) : Acts e p top t (φ ∨ ψ) (a ++ b) := by
  refine ⟨fun l hl => ?_, ?_⟩
  · rcases List.mem_append.1 hl with hl | hl
    · exact h.form l hl
    · exact k.form l hl
  · rw [← h.hit, ← k.hit]
    simp only [List.mem_append]
    constructor
    · rintro ⟨args, ms, hl | hl, r⟩
      · exact .inl ⟨args, ms, hl, r⟩
      · exact .inr ⟨args, ms, hl, r⟩
    · rintro (⟨args, ms, hl, r⟩ | ⟨args, ms, hl, r⟩)
      · exact ⟨args, ms, .inl hl, r⟩
      · exact ⟨args, ms, .inr hl, r⟩

theorem acts_flatMap {α : Type} {e : Host} {p : Packet} {top : Str} {t : Target} {φ : α → Prop} {f : α → List Line}
    (l : List α) (h : ∀ a ∈ l, Acts e p top t (φ a) (f a)) : Acts e p top t (∃ a ∈ l, φ a) (l.flatMap f) := by
  induction l with
  | nil => exact acts_nil.congr (by simp)
  | cons a l ih =>
    rw [List.flatMap_cons]
    exact (acts_append (h a List.mem_cons_self) (ih fun b hb => h b (List.mem_cons_of_mem _ hb))).congr (by simp)

/-- One rule, possibly with its log rule before it. -/
theorem acts_rule {e : Host} {p : Packet} {top : Str} {t : Target} {φ : Prop} {args act logs : List Arg} {b : Bool}
    (h : Says e p args φ) (ha : Reads act t) (hl : b = true → Reads logs .log) (ht : t ≠ .log) :
    Acts e p top t φ ((if b then [.rule top (args ++ logs)] else []) ++ [.rule top (args ++ act)]) := by
  obtain ⟨ms, h1, h2⟩ := h
  have pa : parse (args ++ act) = some (ms, t) := by rw [h1, ha]; simp
  have one : Acts e p top t φ [.rule top (args ++ act)] := by
    refine ⟨fun l hl => ⟨_, _, _, List.mem_singleton.1 hl, pa, .inr rfl⟩, ?_⟩
    rw [← h2]
    constructor
    · rintro ⟨args', ms', hm, hp, hall⟩
      rw [List.mem_singleton, Line.rule.injEq] at hm
      rw [hm.2, pa] at hp
      cases hp
      exact hall
    · intro hall
      exact ⟨_, _, List.mem_singleton.2 rfl, pa, hall⟩
  cases b with
  | false => exact one
  | true =>
    have pl : parse (args ++ logs) = some (ms, .log) := by rw [h1, hl rfl]; simp
    have lg : Acts e p top t False [.rule top (args ++ logs)] := by
      refine ⟨fun l hl => ⟨_, _, _, List.mem_singleton.1 hl, pl, .inl rfl⟩, ?_⟩
      rw [iff_false]
      rintro ⟨args', ms', hm, hp, hall⟩
      rw [List.mem_singleton, Line.rule.injEq] at hm
      rw [hm.2, pl] at hp
      cases hp
      exact ht rfl
    exact (acts_append lg one).congr (by simp)

/-! ### ports -/

/-- The condition of a port variable. -/
def varCond (p : Packet) : PortVar → Prop
  | none => True
  | some (source, s) => PMem s.2 (if source then p.sport else p.dport)

theorem portArgs_says {e : Host} {p : Packet} {source : Bool} {s : PortStmt} (hc : portCount s.2 ≤ 15)
    (h1 : s.1 = false → ∃ r, s.2 = [r]) : Says e p (portArgs source s) (PMem s.2 (if source then p.sport else p.dport)) := by
  obtain ⟨m, l⟩ := s
  cases m with
  | true =>
    cases source with
    | true => exact says_of (m := .sports l) (seg_ext (if_pos hc) (by simp))
    | false => exact says_of (m := .dports l) (seg_ext (if_pos hc) (by simp))
  | false =>
    obtain ⟨r, hr⟩ := h1 rfl
    dsimp only at hr
    subst hr
    cases source with
    | true => exact says_of (m := .sports [r]) (seg_one (by decide) rfl)
    | false => exact says_of (m := .dports [r]) (seg_one (by decide) rfl)

theorem portVars_says {e : Host} {p : Packet} {source : Bool} {ps : List PortRange} {v : PortVar}
    (hv : v ∈ portVars source ps) : Says e p v.args (varCond p v) := by
  unfold portVars at hv
  split at hv
  · rw [List.mem_singleton.1 hv]; exact says_nil
  · obtain ⟨s, hs, rfl⟩ := List.mem_map.1 hv
    obtain ⟨h1, _, h3⟩ := (portStatements_spec ps).2.1 s hs
    exact portArgs_says h1 h3

theorem portVars_cond {p : Packet} {source : Bool} {ps : List PortRange} :
    (∃ v ∈ portVars source ps, varCond p v) ↔ PortMatch ps (if source then p.sport else p.dport) := by
  unfold portVars PortMatch
  split
  next h => simp [varCond, List.isEmpty_iff.1 h]
  next h =>
    have hne : ps ≠ [] := by simpa using h
    constructor
    · rintro ⟨v, hv, hc⟩
      obtain ⟨s, hs, rfl⟩ := List.mem_map.1 hv
      obtain ⟨r, hr, hx⟩ := hc
      refine .inr ⟨r, ?_, hx⟩
      rw [← (portStatements_spec ps).1]
      exact List.mem_flatMap.2 ⟨s, hs, hr⟩
    · rintro (h | ⟨r, hr, hx⟩)
      · exact absurd h hne
      · rw [← (portStatements_spec ps).1] at hr
        obtain ⟨s, hs, hr⟩ := List.mem_flatMap.1 hr
        exact ⟨_, List.mem_map.2 ⟨s, hs, rfl⟩, r, hr, hx⟩

/-- Only the last variable is not multiport. -/
theorem portVars_last (source : Bool) (ps : List PortRange) :
    ∃ a b, portVars source ps = a ++ b ∧ (∀ v ∈ a, PortVar.multi v = true) ∧ b.length ≤ 1 := by
  unfold portVars
  split
  · exact ⟨[], [none], rfl, by simp, by simp⟩
  · obtain ⟨a, b, h, h1, h2⟩ := (portStatements_spec ps).2.2
    refine ⟨a.map fun s => some (source, s), b.map fun s => some (source, s), by rw [h, List.map_append], ?_, by simpa using h2⟩
    intro v hv
    obtain ⟨s, hs, rfl⟩ := List.mem_map.1 hv
    exact h1 s hs

/-! ### one part -/

/-- The variables of the loops say together the condition. -/
def Holding (e : Host) (p : Packet) (proto : String) (st : PState) (K : Prop) : Prop :=
  ∃ P I O, Says e p st.proto P ∧ Says e p st.icmp I ∧ Says e p st.options.flatten O ∧ ((P ∧ I ∧ O) ↔ K) ∧
    (proto = "all" → P)

theorem logArgs_reads {x : Ctx} (h : x.logLimit = none) : Reads (logArgs x) .log := by
  unfold logArgs
  rw [h]
  rfl

/-- The fixed parts of a rule. -/
structure Parts (e : Host) (p : Packet) (x : Ctx) (flags src dst action : List Arg) (t : Target) (F S D : Prop) : Prop where
  flags : Says e p flags F
  src : Says e p src S
  dst : Says e p dst D
  action : Reads action t
  notLog : t ≠ .log
  limit : x.log = true → x.logLimit = none

/-- The conditions on interfaces. -/
def ifaceCond (p : Packet) (x : Ctx) : Prop :=
  (∀ i, x.sint = some i → p.inInterface = i) ∧ ∀ i, x.dint = some i → p.outInterface = i

theorem iface_says {e : Host} {p : Packet} (x : Ctx) :
    Says e p ((x.sint.map fun i => [Arg.w "-i", .w i]).getD [] ++ (x.dint.map fun i => [Arg.w "-o", .w i]).getD [])
      (ifaceCond p x) := by
  refine says_append ?_ ?_
  · cases x.sint with
    | none => exact says_nil.congr (by simp)
    | some i => exact (says_of (m := .inIface i) (seg_one (by decide) rfl)).congr (by simp [Match.Holds])
  · cases x.dint with
    | none => exact says_nil.congr (by simp)
    | some i => exact (says_of (m := .outIface i) (seg_one (by decide) rfl)).congr (by simp [Match.Holds])

theorem portRule_spec {e : Host} {p : Packet} {x : Ctx} {proto : String} {flags src dst action : List Arg} {t : Target}
    {F S D K A B : Prop} {st : PState} {sp dp : PortVar} (h : Parts e p x flags src dst action t F S D)
    (hst : Holding e p proto st K) (ha : Says e p sp.args A) (hb : Says e p dp.args B) :
    Acts e p x.top t (K ∧ (F ∧ S ∧ D ∧ ifaceCond p x) ∧ A ∧ B) (portRule x proto flags src dst action st sp dp).2 ∧
    Holding e p proto (portRule x proto flags src dst action st sp dp).1 K := by
  have step1 : Holding e p proto (if proto = "icmpv6" then (⟨[], [], st.options ++ [st.proto, st.icmp]⟩ : PState) else st) K := by
    obtain ⟨P, I, O, h1, h2, h3, h4, h5⟩ := hst
    split
    · refine ⟨True, True, O ∧ P ∧ I, says_nil, says_nil, ?_, ?_, fun _ => trivial⟩
      · show Says e p (st.options ++ [st.proto, st.icmp]).flatten _
        rw [List.flatten_append]
        refine says_append h3 ?_
        show Says e p (st.proto ++ (st.icmp ++ [])) _
        rw [List.append_nil]
        exact says_append h1 h2
      · rw [← h4]
        constructor
        · rintro ⟨_, _, o, p, i⟩; exact ⟨p, i, o⟩
        · rintro ⟨p, i, o⟩; exact ⟨trivial, trivial, o, p, i⟩
    · exact ⟨P, I, O, h1, h2, h3, h4, h5⟩
  unfold portRule
  dsimp only
  generalize (if proto = "icmpv6" then (⟨[], [], st.options ++ [st.proto, st.icmp]⟩ : PState) else st) = st1 at step1 ⊢
  have step2 : Holding e p proto
      (if x.af = .v6 ∧ proto = "all" ∧ action.contains (.w "REJECT") = true then { st1 with proto := [] } else st1) K := by
    obtain ⟨P, I, O, h1, h2, h3, h4, h5⟩ := step1
    split
    next hc =>
      refine ⟨True, I, O, says_nil, h2, h3, ?_, fun _ => trivial⟩
      rw [← h4]
      have := h5 hc.2.1
      simp [this]
    · exact ⟨P, I, O, h1, h2, h3, h4, h5⟩
  generalize (if x.af = .v6 ∧ proto = "all" ∧ action.contains (.w "REJECT") = true then { st1 with proto := [] } else st1) = st2
    at step2 ⊢
  refine ⟨?_, step2⟩
  obtain ⟨P, I, O, h1, h2, h3, h4, h5⟩ := step2
  have := says_append h1 (says_append h.flags (says_append ha (says_append hb (says_append h2 (says_append h.src
    (says_append h.dst (says_append h3 (iface_says x))))))))
  refine (acts_rule this h.action (fun hl => logArgs_reads (h.limit hl)) h.notLog).congr ?_
  rw [← h4]
  constructor
  · rintro ⟨p, f, a, b, i, s, d, o, n⟩; exact ⟨⟨p, i, o⟩, ⟨f, s, d, n⟩, a, b⟩
  · rintro ⟨⟨p, i, o⟩, ⟨f, s, d, n⟩, a, b⟩; exact ⟨p, f, a, b, i, s, d, o, n⟩

theorem dportLoop_spec {e : Host} {p : Packet} {x : Ctx} {proto : String} {flags src dst action : List Arg} {t : Target}
    {F S D K : Prop} (h : Parts e p x flags src dst action t F S D) (dps : List PortVar) :
    ∀ {sp : PortVar} {st : PState}, Holding e p proto st K → Says e p sp.args (varCond p sp) →
      (∀ v ∈ dps, Says e p v.args (varCond p v)) →
      (∃ a b, dps = a ++ b ∧ (∀ v ∈ a, PortVar.multi v = true) ∧ b.length ≤ 1) →
      Acts e p x.top t (K ∧ (F ∧ S ∧ D ∧ ifaceCond p x) ∧ varCond p sp ∧ ∃ v ∈ dps, varCond p v)
        (dportLoop x proto flags src dst action sp dps st).2 ∧
      Holding e p proto (dportLoop x proto flags src dst action sp dps st).1 K := by
  induction dps with
  | nil => intro sp st hst _ _ _; exact ⟨acts_nil.congr (by simp), hst⟩
  | cons dp dps ih =>
    intro sp st hst hsp hdps hl
    have hdp := hdps dp List.mem_cons_self
    rw [dportLoop]
    dsimp only
    split
    next hsw =>
      -- a swap can only happen for the last statement
      have hnil : dps = [] := by
        obtain ⟨a, b, he, ha, hb⟩ := hl
        cases a with
        | nil =>
          rw [List.nil_append] at he
          rw [← he, List.length_cons] at hb
          exact List.length_eq_zero_iff.1 (by omega)
        | cons y a =>
          rw [List.cons_append] at he
          cases he
          have := ha dp List.mem_cons_self
          rw [this] at hsw
          simp at hsw
      subst hnil
      obtain ⟨r1, r2⟩ := portRule_spec h hst hdp hsp
      refine ⟨?_, r2⟩
      show Acts e p x.top t _ ((portRule x proto flags src dst action st dp sp).2 ++ [])
      rw [List.append_nil]
      refine r1.congr ?_
      simp only [List.mem_singleton, exists_eq_left]
      constructor
      · rintro ⟨k, f, b, a⟩; exact ⟨k, f, a, b⟩
      · rintro ⟨k, f, a, b⟩; exact ⟨k, f, b, a⟩
    next =>
      obtain ⟨r1, r2⟩ := portRule_spec h hst hsp hdp
      obtain ⟨s1, s2⟩ := ih r2 hsp (fun v hv => hdps v (List.mem_cons_of_mem _ hv)) (by
        obtain ⟨a, b, he, ha, hb⟩ := hl
        cases a with
        | nil =>
          rw [List.nil_append] at he
          rw [← he, List.length_cons] at hb
          exact ⟨[], dps, rfl, by simp, by omega⟩
        | cons y a =>
          rw [List.cons_append] at he
          cases he
          exact ⟨a, b, rfl, fun v hv => ha v (List.mem_cons_of_mem _ hv), hb⟩)
      refine ⟨(acts_append r1 s1).congr ?_, s2⟩
      simp only [List.mem_cons, exists_eq_or_imp]
      constructor
      · rintro (⟨k, f, a, b⟩ | ⟨k, f, a, b⟩)
        · exact ⟨k, f, a, .inl b⟩
        · exact ⟨k, f, a, .inr b⟩
      · rintro ⟨k, f, a, b | b⟩
        · exact .inl ⟨k, f, a, b⟩
        · exact .inr ⟨k, f, a, b⟩

theorem sportLoop_spec {e : Host} {p : Packet} {x : Ctx} {proto : String} {flags src dst action : List Arg} {t : Target}
    {F S D K : Prop} (h : Parts e p x flags src dst action t F S D) (dps : List PortVar)
    (hdps : ∀ v ∈ dps, Says e p v.args (varCond p v))
    (hl : ∃ a b, dps = a ++ b ∧ (∀ v ∈ a, PortVar.multi v = true) ∧ b.length ≤ 1) (sps : List PortVar) :
    ∀ {st : PState}, Holding e p proto st K → (∀ v ∈ sps, Says e p v.args (varCond p v)) →
      Acts e p x.top t (K ∧ (F ∧ S ∧ D ∧ ifaceCond p x) ∧ (∃ v ∈ sps, varCond p v) ∧ ∃ v ∈ dps, varCond p v)
        (sportLoop x proto flags src dst action sps dps st).2 ∧
      Holding e p proto (sportLoop x proto flags src dst action sps dps st).1 K := by
  induction sps with
  | nil => intro st hst _; exact ⟨acts_nil.congr (by simp), hst⟩
  | cons sp sps ih =>
    intro st hst hsps
    rw [sportLoop]
    dsimp only
    obtain ⟨r1, r2⟩ := dportLoop_spec h dps hst (hsps sp List.mem_cons_self) hdps hl
    obtain ⟨s1, s2⟩ := ih r2 fun v hv => hsps v (List.mem_cons_of_mem _ hv)
    refine ⟨(acts_append r1 s1).congr ?_, s2⟩
    simp only [List.mem_cons, exists_eq_or_imp]
    constructor
    · rintro (⟨k, f, a, b⟩ | ⟨k, f, a, b⟩)
      · exact ⟨k, f, .inl a, b⟩
      · exact ⟨k, f, .inr a, b⟩
    · rintro ⟨k, f, a | a, b⟩
      · exact .inl ⟨k, f, a, b⟩
      · exact .inr ⟨k, f, a, b⟩

/-- Protocols that change the list of options. -/
def Special (proto : String) : Prop := proto = "icmpv6" ∨ proto = "hopopt" ∨ proto = "fragment"

theorem portRule_options {x : Ctx} {proto : String} {flags src dst action : List Arg} (hp : proto ≠ "icmpv6") {st : PState}
    {sp dp : PortVar} : (portRule x proto flags src dst action st sp dp).1.options = st.options := by
  unfold portRule
  dsimp only
  rw [if_neg hp]
  split <;> rfl

theorem dportLoop_options {x : Ctx} {proto : String} {flags src dst action : List Arg} (hp : proto ≠ "icmpv6")
    (dps : List PortVar) : ∀ {sp : PortVar} {st : PState},
      (dportLoop x proto flags src dst action sp dps st).1.options = st.options := by
  induction dps with
  | nil => intro sp st; rfl
  | cons dp dps ih =>
    intro sp st
    rw [dportLoop]
    dsimp only
    rw [ih, portRule_options hp]

theorem sportLoop_options {x : Ctx} {proto : String} {flags src dst action : List Arg} (hp : proto ≠ "icmpv6")
    (dps sps : List PortVar) : ∀ {st : PState},
      (sportLoop x proto flags src dst action sps dps st).1.options = st.options := by
  induction sps with
  | nil => intro st; rfl
  | cons sp sps ih =>
    intro st
    rw [sportLoop]
    dsimp only
    rw [ih, dportLoop_options hp]

theorem stateOpts_says {e : Host} {p : Packet} {x : Ctx} {proto : String} {itype : Option Nat} {action : List Arg}
    {options : List (List Arg)} (h : e.state ∈ ["NEW", "ESTABLISHED", "RELATED"]) :
    Says e p (stateOpts x proto itype action options).flatten True := by
  unfold stateOpts
  split
  · split
    · exact (says_of (m := .state ["NEW", "ESTABLISHED", "RELATED"]) (seg_ext rfl (by simp))).congr
        (by simp only [iff_true]; exact h)
    · exact says_nil
  · exact says_nil

/-- The condition of the options added for a protocol. -/
def u32Cond (e : Host) (p : Packet) (proto : String) : Prop :=
  (proto = "hopopt" → (Match.u32 "0x3&0xff=0x0").Holds e p) ∧ (proto = "fragment" → (Match.u32 "0x3&0xff=0x2c").Holds e p)

theorem u32Opts_says {e : Host} {p : Packet} {proto : String} : Says e p (u32Opts proto).flatten (u32Cond e p proto) := by
  unfold u32Opts u32Cond
  split
  · exact (says_of (m := .u32 "0x3&0xff=0x0") (seg_ext rfl (by simp))).congr (by simp)
  · exact (says_of (m := .u32 "0x3&0xff=0x2c") (seg_ext rfl (by simp))).congr (by simp)
  next h1 h2 => exact says_nil.congr ⟨fun _ => ⟨fun h => (h1 h).elim, fun h => (h2 h).elim⟩, fun _ => trivial⟩

/-- `_FormatPart`: its rules match exactly the packets that satisfy all parts. -/
theorem formatPart_spec {e : Host} {p : Packet} {x : Ctx} {proto : String} {saddr daddr : Option Net}
    {sport dport : List PortRange} {options : List (List Arg)} {tf : List String} {itype code : Option Nat}
    {track : List String × List String} {action : List Arg} {t : Target} {F S D P I O : Prop}
    (h : Parts e p x (flagArgs tf track) (addrArgs x true saddr) (addrArgs x false daddr) action t F S D)
    (hp : Says e p (protoArgs proto) P) (hall : proto = "all" → P) (hi : Says e p (icmpArgs proto itype code) I)
    (ho : Says e p options.flatten O) (hs : e.state ∈ ["NEW", "ESTABLISHED", "RELATED"]) :
    Acts e p x.top t ((P ∧ I ∧ O ∧ u32Cond e p proto) ∧ (F ∧ S ∧ D ∧ ifaceCond p x) ∧ PortMatch sport p.sport ∧
      PortMatch dport p.dport) (formatPart x proto saddr sport daddr dport options tf itype code track action).2 ∧
    (¬ Special proto →
      Says e p (formatPart x proto saddr sport daddr dport options tf itype code track action).1.flatten O) ∧
    (options = [] → (formatPart x proto saddr sport daddr dport options tf itype code track action).1 = []) := by
  have hst : Holding e p proto ⟨protoArgs proto, icmpArgs proto itype code,
      (options ++ u32Opts proto) ++ stateOpts x proto itype action (options ++ u32Opts proto)⟩
      (P ∧ I ∧ O ∧ u32Cond e p proto) := by
    refine ⟨P, I, (O ∧ u32Cond e p proto) ∧ True, hp, hi, ?_, by simp, hall⟩
    rw [List.flatten_append, List.flatten_append]
    exact says_append (says_append ho u32Opts_says) (stateOpts_says hs)
  obtain ⟨r1, r2⟩ := sportLoop_spec h (portVars false dport) (fun v hv => portVars_says hv)
    (portVars_last false dport) (portVars true sport) hst (fun v hv => portVars_says hv)
  unfold formatPart
  dsimp only
  refine ⟨r1.congr ?_, fun hn => ?_, fun he => by rw [he]; rfl⟩
  · rw [portVars_cond, portVars_cond]; rfl
  · split
    next he =>
      have he := List.isEmpty_iff.1 he
      rw [he] at ho
      exact ho
    · rw [sportLoop_options (fun e => hn (.inl e))]
      have : u32Opts proto = [] := by
        unfold u32Opts
        split
        · exact absurd (.inr (.inl rfl)) hn
        · exact absurd (.inr (.inr rfl)) hn
        · rfl
      rw [this, List.append_nil, List.flatten_append]
      exact (says_append ho (stateOpts_says hs)).congr (by simp)

end Iptables
end Verif
