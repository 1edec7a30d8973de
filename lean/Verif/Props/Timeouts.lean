import Verif.Spec.Timeouts
import Verif.Props.MsmpcRefuted
import Verif.Props.SrxRefuted
import Verif.Props.SrxText

/-!
C170: sessions end when the terms say, for capirca/lib/junipermsmpc.py and capirca/lib/junipersrx.py.
-/

namespace Verif.Props
open Verif Verif.Spec Policy Aclgenerator Nacaddr
open Verif.Lemmas.MsmpcL
open Verif.Srx (STerm)
open Verif.Spec.Timeouts

/-! ### MS-MPC -/

theorem timeout_body {a : Msmpc.App} {b : Msmpc.AppDef} (hb : b ∈ Msmpc.bodies a) :
    (a.types ≠ [] → b.timeout = Msmpc.icmpTimeout a.timeout) ∧ (a.types = [] → b.timeout = a.timeout) := by
  unfold Msmpc.bodies at hb
  split at hb
  next h =>
    refine ⟨fun _ => ?_, fun h0 => ?_⟩
    · obtain ⟨ty, _, hb⟩ := List.mem_flatMap.1 hb
      obtain ⟨p, _, rfl⟩ := List.mem_map.1 hb
      rfl
    · rw [h0] at h; cases h
  next h =>
    refine ⟨fun h0 => ?_, fun _ => ?_⟩
    · exact absurd h0 (by simpa using h)
    · have hb := (List.mem_filter.1 hb).1
      obtain ⟨p, _, hb⟩ := List.mem_flatMap.1 hb
      obtain ⟨s, _, hb⟩ := List.mem_flatMap.1 hb
      obtain ⟨d, _, rfl⟩ := List.mem_map.1 hb
      rfl

/-- C170, MS-MPC: for filters of different names, every application to which a rule refers has the timeout of the term of the rule, or the
default for ICMP types; except that a timeout of 0 of a term with ICMP types is not printed. -/
theorem C170_msmpc_partial {fs : List Msmpc.Filter} {gs : List Msmpc.Group} (h : Msmpc.output fs = .ok gs)
    (names : ((fs.filter Msmpc.Filter.here).map fun f => f.options.head?).Nodup) {i : Nat} {f : Msmpc.Filter} {o : Msmpc.Group}
    (hf : (fs.filter Msmpc.Filter.here)[i]? = some f) (ho : gs[i]? = some o) {r : Msmpc.Rule} (hr : .term r ∈ o.terms) :
    ∃ rest, f.options = o.name :: rest ∧ ∃ g ∈ f.terms, Spec.Msmpc.Kept g ∧ (∃ v, Spec.Msmpc.Carries rest g v r) ∧
      ∀ d, MsmpcUses o r d → (Idles g d.timeout ∨ (g.term.icmpType ≠ [] ∧ g.timeout = some 0 ∧ d.timeout = none)) ∧
        ((g.term.icmpType = [] ∨ g.timeout ≠ some 0) → Idles g d.timeout) := by
  obtain ⟨rest, type, x, bs, m, own⟩ := msmpc_made h hf ho
  have own := own names
  obtain ⟨cs, c1, c2, c3⟩ := msmpc_kept m
  rw [c2] at hr
  obtain ⟨c, hc, hr⟩ := List.mem_flatMap.1 hr
  have hct : c.1 ∈ f.terms := by rw [← c1]; exact List.mem_map.2 ⟨c, hc, rfl⟩
  rcases c3 c hc with ⟨h1, h2⟩ | ⟨hk, set, types, k1, k2, k3⟩
  · rw [h2] at hr; cases hr
  · have hrule : ∃ dup v as, (dup = true ↔ Spec.Msmpc.Split rest c.1.term) ∧ Msmpc.actionsOf c.1.term.action = .ok as ∧
        r = msmpcRule c.1 set dup v as := by
      rcases render_is m.fine m.kind hk k3 with ⟨v1, v2⟩ | ⟨v1, hs, y, z, p1, p2, e⟩ | ⟨v1, hs, v, hfam, hone, p1⟩
      · rw [v2] at hr
        cases List.mem_singleton.1 hr
      · rw [e] at hr
        rcases List.mem_append.1 hr with hr | hr
        · rcases piece_is p1 with ⟨_, rfl⟩ | ⟨_, _, _, as, ha, rfl⟩
          · cases hr
          · cases List.mem_singleton.1 hr
            exact ⟨_, _, _, ⟨fun _ => hs, fun _ => rfl⟩, ha, rfl⟩
        · rcases piece_is p2 with ⟨_, rfl⟩ | ⟨_, _, _, as, ha, rfl⟩
          · cases hr
          · cases List.mem_singleton.1 hr
            exact ⟨_, _, _, ⟨fun _ => hs, fun _ => rfl⟩, ha, rfl⟩
      · rcases piece_is p1 with ⟨_, e⟩ | ⟨_, _, _, as, ha, e⟩
        · rw [e] at hr; cases hr
        · rw [e] at hr
          cases List.mem_singleton.1 hr
          exact ⟨_, _, _, ⟨fun h => (by cases h), fun h => absurd h hs⟩, ha, rfl⟩
    obtain ⟨dup, v, as, hd, ha, rfl⟩ := hrule
    refine ⟨rest, m.head, c.1, hct, hk, ⟨v, msmpc_carries hd ha⟩, fun d hd => ?_⟩
    obtain ⟨s, ms, hs, hm, hn, hda⟩ := hd
    have hs : (if c.1.term.sourcePort.isEmpty && c.1.term.destinationPort.isEmpty && c.1.term.icmpType.isEmpty && c.1.term.protocol.isEmpty
      then none else some (set ++ "-app".toList)) = some s := hs
    split at hs
    · cases hs
    cases hs
    rw [own.sets] at hm
    rw [own.defs] at hda
    have hun := m.looped.unique
    obtain ⟨b, hb', e⟩ := List.mem_map.1 hm
    simp only [Prod.mk.injEq] at e
    obtain ⟨e1, rfl⟩ := e
    have := entry_unique hun k2 (mem_printed.1 hb').1 (List.append_cancel_right e1).symm
    subst this
    obtain ⟨c', hc', hda⟩ := List.mem_flatMap.1 hda
    obtain ⟨i, x', hx, rfl⟩ := mem_defsOf.1 hda
    obtain ⟨d', hd', e2⟩ := List.mem_map.1 hn
    obtain ⟨j, y, hy, rfl⟩ := mem_defsOf.1 hd'
    have := entry_unique hun k2 (mem_printed.1 hc').1 (appName_is e2).1
    subst this
    obtain ⟨t1, t2⟩ := timeout_body (List.mem_of_getElem? hx)
    have ety : (Msmpc.entry o.name.toList (Msmpc.change c.1.term) c.1.timeout types).types = types.filterMap id := rfl
    have eto : (Msmpc.entry o.name.toList (Msmpc.change c.1.term) c.1.timeout types).timeout = c.1.timeout := rfl
    dsimp only at t1 t2 ⊢
    rw [ety, eto] at t1 t2
    rcases types_spec k1 with ⟨q1, q2⟩ | ⟨q1, q2, _⟩
    · have : Idles c.1 x'.timeout := by
        rw [t2 q2]
        cases ht : c.1.timeout with
        | none => exact .device ht q1
        | some n => exact .said ht
      exact ⟨.inl this, fun _ => this⟩
    · rw [t1 q2]
      cases ht : c.1.timeout with
      | none => exact ⟨.inl (.icmp ht q1), fun _ => .icmp ht q1⟩
      | some n =>
        cases n with
        | zero =>
          refine ⟨.inr ⟨q1, rfl, rfl⟩, ?_⟩
          rintro (h0 | h0)
          · exact absurd h0 q1
          · exact absurd rfl h0
        | succ n => exact ⟨.inl (.said ht), fun _ => .said ht⟩

/-- The hypotheses hold for the policy above, and a rule of it refers to an application with a timeout. -/
example (gs : List Msmpc.Group) (h : Msmpc.output msmpcPolicy = .ok gs) (o : Msmpc.Group) (ho : gs[0]? = some o) (r : Msmpc.Rule)
    (hr : .term r ∈ o.terms) : ∃ rest, msmpcFilter.options = o.name :: rest ∧ ∃ g ∈ msmpcFilter.terms, Spec.Msmpc.Kept g ∧
      (∃ v, Spec.Msmpc.Carries rest g v r) ∧
      ∀ d, MsmpcUses o r d → (Idles g d.timeout ∨ (g.term.icmpType ≠ [] ∧ g.timeout = some 0 ∧ d.timeout = none)) ∧
        ((g.term.icmpType = [] ∨ g.timeout ≠ some 0) → Idles g d.timeout) :=
  C170_msmpc_partial h (by decide) (i := 0) rfl ho hr

/-- Whether the only group has one rule, which refers to a set whose only application has the timeout. -/
def msmpcIdle (fs : List Msmpc.Filter) (n : Option Nat) : Bool :=
  match Msmpc.output fs with
  | .ok [o] =>
    match o.terms, o.sets, o.apps with
    | [.term r], [(s, [m])], [d] => r.appSet == some s && m == d.name && d.timeout == n
    | _, _, _ => false
  | _ => false

theorem msmpc_idle {fs : List Msmpc.Filter} {n : Option Nat} (h : msmpcIdle fs n = true) :
    ∃ o r d, Msmpc.output fs = .ok [o] ∧ o.terms = [.term r] ∧ MsmpcUses o r d ∧ d.timeout = n := by
  unfold msmpcIdle at h
  split at h
  next o e =>
    split at h
    next r s m d e1 e2 e3 =>
      simp only [Bool.and_eq_true, beq_iff_eq] at h
      obtain ⟨⟨h1, h2⟩, h3⟩ := h
      refine ⟨o, r, d, e, e1, ⟨s, [m], h1, ?_, ?_, ?_⟩, h3⟩
      · rw [e2]; simp
      · rw [h2]; simp
      · rw [e3]; simp
    · cases h
  · cases h

/-- C170: with MS-MPC, a timeout of 0 of a term with ICMP types is lost. -/
theorem C170_refuted_zero : ∃ f o r d, (∃ g, f.terms = [g] ∧ g.timeout = some 0 ∧ g.term.icmpType = ["echo-request"]) ∧
    Msmpc.output [f] = .ok [o] ∧ o.terms = [.term r] ∧ MsmpcUses o r d ∧ d.timeout = none := by
  let g : STerm := { term := { name := "t".toList, action := ["accept"], protocol := ["icmp"], icmpType := ["echo-request"] }, timeout := some 0 }
  obtain ⟨o, r, d, h1, h2, h3, h4⟩ := msmpc_idle (fs := [{ options := ["f"], terms := [g] }]) (n := none) (by decide +kernel)
  exact ⟨_, o, r, d, ⟨g, rfl, rfl, rfl⟩, h1, h2, h3, h4⟩

/-- With another protocol it is printed. -/
example : ∃ o r d, Msmpc.output [{ options := ["f"], terms := [{ term := { name := "t".toList, action := ["accept"], protocol := ["gre"] }, timeout := some 0 }] }] =
    .ok [o] ∧ o.terms = [.term r] ∧ MsmpcUses o r d ∧ d.timeout = some 0 :=
  msmpc_idle (by decide +kernel)

/-! ### SRX -/

theorem srx_types_nil {t : Term} {ps : List Proto} {types : List Nat} (h : Srx.icmpTypes t ps = .ok types) : types = [] ↔ t.icmpType = [] := by
  unfold Srx.icmpTypes at h
  obtain ⟨l, hl, h⟩ := bind_ok h
  cases h
  by_cases h0 : t.icmpType = []
  · rw [h0] at hl
    cases hl
    exact iff_of_true rfl h0
  · refine iff_of_false ?_ h0
    unfold normalizeIcmpTypes at hl
    rw [if_neg (by simpa using h0)] at hl
    split at hl
    · cases hl
    split at hl
    · cases hl
    rename_i af _
    unfold Aclgenerator.icmpNumbers at hl
    split at hl
    · cases hl
    split at hl
    · cases hl
    next hall =>
      cases hl
      obtain ⟨s, hs⟩ := List.exists_mem_of_ne_nil _ h0
      have : ∃ k, (icmpTable af).lookup s = some k := by
        apply Option.isSome_iff_exists.1
        cases hk : (icmpTable af).lookup s with
        | some _ => rfl
        | none => exact absurd (List.any_eq_true.2 ⟨s, hs, by rw [hk]; rfl⟩) hall
      obtain ⟨k, hk⟩ := this
      refine List.ne_nil_of_mem (a := k) ?_
      rw [List.mem_filterMap]
      refine ⟨some k, List.mem_map.2 ⟨k, ?_, rfl⟩, rfl⟩
      rw [mem_isort]
      exact List.mem_filterMap.2 ⟨s, hs, hk⟩

theorem entry_unique_srx {α β : Type} {f : α → β} : ∀ {l : List α}, (l.map f).Nodup → ∀ {a b : α}, a ∈ l → b ∈ l → f a = f b → a = b
  | [], _, a, _, h, _, _ => by cases h
  | x :: l, hn, a, b, ha, hb, e => by
    rw [List.map_cons, List.nodup_cons] at hn
    rcases List.mem_cons.1 ha with rfl | ha' <;> rcases List.mem_cons.1 hb with rfl | hb'
    · rfl
    · exact absurd (List.mem_map.2 ⟨b, hb', e.symm⟩) hn.1
    · exact absurd (List.mem_map.2 ⟨a, ha', e⟩) hn.1
    · exact entry_unique_srx hn.2 ha' hb' e

theorem srx_timeout {a : Srx.App} {n : Str} {ts : List Srx.AppTerm} (h : Srx.Def.app n ts ∈ defsOf a) {t : Srx.AppTerm} (ht : t ∈ ts) :
    (a.types = [] → t.timeout = a.timeout) ∧ (a.types ≠ [] → t.timeout = some (a.timeout.getD 60)) := by
  unfold defsOf at h
  have icmp : ∀ e ∈ Srx.icmpTerms a, e.timeout = some (a.timeout.getD 60) := by
    intro e he
    unfold Srx.icmpTerms at he
    obtain ⟨k, _, he⟩ := List.mem_flatMap.1 he
    obtain ⟨p, _, rfl⟩ := List.mem_map.1 he
    rfl
  split at h
  next h0 =>
    refine ⟨fun _ => ?_, fun h1 => absurd (by simpa using h0) h1⟩
    rcases List.mem_append.1 h with h | h
    · unfold Srx.portDefs at h
      obtain ⟨t', ht', e⟩ := List.mem_map.1 h
      injection e with _ e
      rw [← e] at ht
      rw [List.mem_singleton.1 ht]
      unfold Srx.portTerms at ht'
      obtain ⟨x, hx, rfl⟩ := List.mem_map.1 ht'
      have hx := (List.mem_zipIdx' hx).2 ▸ List.getElem_mem _
      obtain ⟨p, _, hx⟩ := List.mem_flatMap.1 hx
      obtain ⟨s, _, hx⟩ := List.mem_flatMap.1 hx
      obtain ⟨d, _, hx⟩ := List.mem_map.1 hx
      show x.1.timeout = _
      rw [← hx]
    · cases List.mem_singleton.1 h
  next h0 =>
    refine ⟨fun h1 => absurd (by simpa using h1) h0, fun _ => ?_⟩
    unfold Srx.icmpDefs at h
    split at h
    · rcases List.mem_cons.1 h with h | h
      · cases h
      · obtain ⟨e, he, h⟩ := List.mem_map.1 h
        injection h with _ h
        rw [← h] at ht
        rw [List.mem_singleton.1 ht]
        exact icmp e.1 ((List.mem_zipIdx' he).2 ▸ List.getElem_mem _)
    · have h := List.mem_singleton.1 h
      injection h with _ h
      rw [h] at ht
      exact icmp t ht

/-- C170, SRX: every application to which a policy refers has the timeout of the term of the policy, or the default for ICMP types. -/
theorem C170_srx {fs : List Srx.Filter} {o : Srx.Output} (h : Srx.output fs = .ok o) {b : Srx.Block} (hb : b ∈ o.blocks) {q : Srx.SPolicy}
    (hq : q ∈ b.policies) :
    ∃ f ∈ fs, b.fromZone = f.fromZone ∧ b.toZone = f.toZone ∧ ∃ g ∈ f.terms, Spec.Srx.Live g ∧
      (q.name = g.term.name ∨ ∃ i : Nat, q.name = g.term.name ++ '_' :: (toString i).toList) ∧
      ∀ t, SrxUses (Srx.defs o.apps) q t → Idles g t.timeout := by
  obtain ⟨mode, st, hst, _, happs, hm⟩ := output_made h
  obtain ⟨f, hf, e1, e2, _, _, hp⟩ := hm b hb
  obtain ⟨g, hg, g', hpart, hmade⟩ := hp q hq
  have key : ∀ t, SrxUses (Srx.defs o.apps) q t → Idles g' t.timeout := by
    intro t ht
    obtain ⟨n, hn, ts, htt, hd⟩ := ht
    rw [happs] at hd
    obtain ⟨ps, types, hps, hty, a, ha, e, n', hsame⟩ := hmade.app
    rw [hn] at e
    split at e
    · cases e
    cases e
    obtain ⟨s1, s2, s3, s4, s5⟩ := same_fields hsame
    have own : ∀ m, Owns a m → Srx.Def.app m ts ∈ Srx.defs st.apps → Srx.Def.app m ts ∈ defsOf a := by
      intro m hm hd
      obtain ⟨a', ha', _, hd⟩ := mem_defs.1 hd
      have := owns_inj (owns_of hd (name_app.2 rfl)) hm
      have := entry_unique_srx hst.apps ha' ha this
      rw [← this]
      exact hd
    have hdef : ∃ m, Srx.Def.app m ts ∈ defsOf a := by
      rcases hd with hd | ⟨ms, hms, m, hm, hd⟩
      · exact ⟨_, own _ (.inl rfl) hd⟩
      · obtain ⟨a', ha', _, hms⟩ := mem_defs.1 hms
        have := owns_inj (owns_of hms (name_set.2 rfl)) (.inl rfl : Owns a _)
        have := entry_unique_srx hst.apps ha' ha this
        rw [this] at hms
        refine ⟨m, own m ?_ hd⟩
        unfold defsOf at hms
        split at hms
        · rcases List.mem_append.1 hms with hms | hms
          · unfold Srx.portDefs at hms
            obtain ⟨_, _, e⟩ := List.mem_map.1 hms
            cases e
          · have hms := List.mem_singleton.1 hms
            unfold Srx.portSet at hms
            injection hms with _ hms
            rw [hms] at hm
            obtain ⟨x, _, rfl⟩ := List.mem_map.1 hm
            exact .inr ⟨_, rfl⟩
        · unfold Srx.icmpDefs at hms
          split at hms
          · rcases List.mem_cons.1 hms with hms | hms
            · injection hms with _ hms
              rw [hms] at hm
              obtain ⟨x, _, rfl⟩ := List.mem_map.1 hm
              exact .inr ⟨_, rfl⟩
            · obtain ⟨_, _, e⟩ := List.mem_map.1 hms
              cases e
          · cases List.mem_singleton.1 hms
    obtain ⟨m, hm⟩ := hdef
    obtain ⟨t1, t2⟩ := srx_timeout hm htt
    dsimp only at s4 s5
    rw [s4, s5] at t1 t2
    by_cases h0 : g'.term.icmpType = []
    · rw [t1 ((srx_types_nil hty).2 h0)]
      cases hto : g'.timeout with
      | none => exact .device hto h0
      | some k => exact .said hto
    · rw [t2 fun h1 => h0 ((srx_types_nil hty).1 h1)]
      cases hto : g'.timeout with
      | none => exact .icmp hto h0
      | some k => exact .said hto
  refine ⟨f, hf, e1, e2, g, hg, ?_⟩
  have same : g'.timeout = g.timeout ∧ g'.term.icmpType = g.term.icmpType := by
    rcases hpart with rfl | ⟨s, d, i, rfl⟩ <;> exact ⟨rfl, rfl⟩
  have key' : ∀ t, SrxUses (Srx.defs o.apps) q t → Idles g t.timeout := by
    intro t ht
    have ht := key t ht
    generalize t.timeout = to at ht
    cases ht with
    | said h => exact .said (same.1 ▸ h)
    | icmp h1 h2 => exact .icmp (same.1 ▸ h1) (same.2 ▸ h2)
    | device h1 h2 => exact .device (same.1 ▸ h1) (same.2 ▸ h2)
  have hl := hmade.live
  rcases hpart with rfl | ⟨s, d, i, rfl⟩
  · exact ⟨hl, .inl hmade.name, key'⟩
  · exact ⟨hl, .inr ⟨i, hmade.name⟩, key'⟩

/-- The theorem applies to a policy with a timeout. -/
def srxTimed : List Srx.Filter :=
  [{ fromZone := "trust", toZone := "untrust", terms :=
      [{ term := { name := "web".toList, action := ["accept"], protocol := ["tcp"], destinationPort := [(80, 80)] }, timeout := some 30 },
       { term := { name := "ping".toList, action := ["accept"], protocol := ["icmp"], icmpType := ["echo-request"] } }] }]

/-- It is accepted, and its applications have the timeouts. -/
example : ((Srx.output srxTimed).toOption.map fun o => (Srx.defs o.apps).flatMap fun d =>
    match d with | .app _ ts => ts.map Srx.AppTerm.timeout | .set _ _ => []) = some [some 60, some 30] := by decide +kernel

example (o : Srx.Output) (h : Srx.output srxTimed = .ok o) (b : Srx.Block) (hb : b ∈ o.blocks) (q : Srx.SPolicy) (hq : q ∈ b.policies) :
    ∃ f ∈ srxTimed, ∃ g ∈ f.terms, ∀ t, SrxUses (Srx.defs o.apps) q t → Idles g t.timeout :=
  let ⟨f, hf, _, _, g, hg, _, _, h⟩ := C170_srx h hb hq
  ⟨f, hf, g, hg, h⟩

end Verif.Props
