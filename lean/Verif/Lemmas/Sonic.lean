import Std.Data.String.ToNat
import Verif.Spec.Sonic
import Verif.Lemmas.OpenConfig

/-!
Lemmas about the model of capirca/lib/sonic.py.
-/

namespace Verif.Sonic
open Verif Verif.Spec Policy Aclgenerator OpenConfig

/-! ### the loops over a shared dictionary -/

/-- Forget fields, from the innermost loop outwards. -/
def forget (k : Nat) (s : Rule) : Rule where
  action := s.action
  proto := s.proto
  flags := s.flags
  icmp := if 5 ≤ k then none else s.icmp
  src := if 4 ≤ k then none else s.src
  dst := if 3 ≤ k then none else s.dst
  sport := if 2 ≤ k then none else s.sport
  sportRange := if 2 ≤ k then none else s.sportRange
  dport := if 1 ≤ k then none else s.dport
  dportRange := if 1 ≤ k then none else s.dportRange

/-- All ports are written in the same way. -/
def OneKind (l : List PortRange) : Prop :=
  (∀ r ∈ l, ¬ Sets r) ∨ (∀ r ∈ l, Sets r ∧ r.1 = r.2) ∨ ∀ r ∈ l, r.1 ≠ r.2

/-- The fields of the ports do not hold what the loop does not overwrite. -/
def Clean (l : List PortRange) (x : Option Nat) (y : Option (Nat × Nat)) : Prop :=
  ((∀ r ∈ l, Sets r ∧ r.1 = r.2) ∨ x = none) ∧ ((∀ r ∈ l, r.1 ≠ r.2) ∨ y = none)

/-- The field of a single port. -/
def single (r : PortRange) : Option Nat := if r.1 = r.2 ∧ r.2 = 0 then none else if r.1 = r.2 then some r.1 else none

/-- The field of a range. -/
def range (r : PortRange) : Option (Nat × Nat) := if r.1 = r.2 then none else some r

theorem clean_fields {l : List PortRange} {x : Option Nat} {y : Option (Nat × Nat)} (hk : OneKind l) (h : Clean l x y)
    {r : PortRange} (hr : r ∈ l) :
    (if r.1 = r.2 ∧ r.2 = 0 then x else if r.1 = r.2 then some r.1 else x) = single r ∧
    (if r.1 = r.2 then y else some r) = range r := by
  unfold single range
  rcases hk with h0 | h0 | h0
  · have h1 := Classical.not_not.1 (h0 r hr)
    have hx : x = none := h.1.resolve_left fun h => h0 r hr (h r hr).1
    have hy : y = none := h.2.resolve_left fun h => h r hr h1.1
    simp [hx, hy]
  · have h1 := h0 r hr
    have hy : y = none := h.2.resolve_left fun h => h r hr h1.2
    have h2 : ¬ (r.1 = r.2 ∧ r.2 = 0) := h1.1
    rw [if_neg h2, if_neg h2, hy]
    exact ⟨by rw [if_pos h1.2, if_pos h1.2], rfl⟩
  · have h1 := h0 r hr
    have hx : x = none := h.1.resolve_left fun h => h1 (h r hr).2
    rw [hx, if_neg h1, if_neg h1, if_neg h1]
    exact ⟨rfl, rfl⟩

theorem clean_again {l : List PortRange} (hk : OneKind l) {r : PortRange} (hr : r ∈ l) : Clean l (single r) (range r) := by
  unfold Clean single range
  rcases hk with h0 | h0 | h0
  · have h1 := Classical.not_not.1 (h0 r hr)
    exact ⟨.inr (if_pos h1), .inr (if_pos h1.1)⟩
  · exact ⟨.inl h0, .inr (if_pos (h0 r hr).2)⟩
  · refine ⟨.inr ?_, .inl h0⟩
    have h1 := h0 r hr
    rw [if_neg (fun h => h1 h.1), if_neg h1]

variable {v : Ver} {fl : Bool} {ps : List (Option Proto)} {types : List (Option Nat)} {sa da : List (Option Net)}
  {sp dp : List PortRange}

def J1 (dp : List PortRange) (s : Rule) : Prop := Clean dp s.dport s.dportRange
def J2 (dp sp : List PortRange) (s : Rule) : Prop := J1 dp s ∧ Clean sp s.sport s.sportRange
def J3 (dp sp : List PortRange) (da : List (Option Net)) (s : Rule) : Prop :=
  J2 dp sp s ∧ ((∀ a ∈ da, a ≠ none) ∨ s.dst = none)
def J4 (dp sp : List PortRange) (da sa : List (Option Net)) (s : Rule) : Prop :=
  J3 dp sp da s ∧ ((∀ a ∈ sa, a ≠ none) ∨ s.src = none)
def J5 (dp sp : List PortRange) (da sa : List (Option Net)) (types : List (Option Nat)) (s : Rule) : Prop :=
  J4 dp sp da sa s ∧ ((∀ a ∈ types, a ≠ none) ∨ s.icmp = none)

theorem putDport_eq {r : PortRange} {s : Rule} : putDport r s =
    { s with dport := if r.1 = r.2 ∧ r.2 = 0 then s.dport else if r.1 = r.2 then some r.1 else s.dport,
             dportRange := if r.1 = r.2 then s.dportRange else some r } := by
  unfold putDport
  by_cases h1 : r.1 = r.2
  · by_cases h2 : r.2 = 0 <;> simp [h1, h2]
  · simp [h1]

theorem putSport_eq {r : PortRange} {s : Rule} : putSport r s =
    { s with sport := if r.1 = r.2 ∧ r.2 = 0 then s.sport else if r.1 = r.2 then some r.1 else s.sport,
             sportRange := if r.1 = r.2 then s.sportRange else some r } := by
  unfold putSport
  by_cases h1 : r.1 = r.2
  · by_cases h2 : r.2 = 0 <;> simp [h1, h2]
  · simp [h1]

/-- The rule with the ports. -/
def withDport (r : PortRange) (s : Rule) : Rule := { s with dport := single r, dportRange := range r }

/-- The rule with the ports. -/
def withSport (r : PortRange) (s : Rule) : Rule := { s with sport := single r, sportRange := range r }

theorem dports_spec (hdp : OneKind dp) : ∀ s, J1 dp s →
    J1 dp (loop putDport (fun s => (s, [s])) dp s).1 ∧
      forget 1 (loop putDport (fun s => (s, [s])) dp s).1 = forget 1 s ∧
      (loop putDport (fun s => (s, [s])) dp s).2 = dp.flatMap fun d => [putDport d (forget 1 s)] := by
  refine loop_spec (keep := id) (I := fun _ => True) (B := fun s => [s]) ?_ (fun s _ => ⟨trivial, rfl, rfl⟩) ?_
  · intro d hd s hs
    refine ⟨trivial, ?_⟩
    obtain ⟨h1, h2⟩ := clean_fields hdp hs hd
    obtain ⟨h3, h4⟩ := clean_fields (x := none) (y := none) hdp ⟨.inr rfl, .inr rfl⟩ hd
    have e1 : (forget 1 s).dport = none := rfl
    have e2 : (forget 1 s).dportRange = none := rfl
    rw [putDport_eq, putDport_eq, id, h1, h2, e1, e2, h3, h4]
    rfl
  · intro d hd s r hs _ he
    obtain ⟨h3, h4⟩ := clean_fields (x := none) (y := none) hdp ⟨.inr rfl, .inr rfl⟩ hd
    have e1 : (forget 1 s).dport = none := rfl
    have e2 : (forget 1 s).dportRange = none := rfl
    rw [id, putDport_eq, e1, e2, h3, h4] at he
    subst he
    exact ⟨clean_again hdp hd, rfl⟩

theorem sports_spec (hdp : OneKind dp) (hsp : OneKind sp) : ∀ s, J2 dp sp s →
    J2 dp sp (loop putSport (loop putDport (fun s => (s, [s])) dp) sp s).1 ∧
      forget 2 (loop putSport (loop putDport (fun s => (s, [s])) dp) sp s).1 = forget 2 s ∧
      (loop putSport (loop putDport (fun s => (s, [s])) dp) sp s).2 =
        sp.flatMap fun c => dp.flatMap fun d => [putDport d (putSport c (forget 2 s))] := by
  refine loop_spec (keep := forget 1) (I := J1 dp) (B := fun s => dp.flatMap fun d => [putDport d s]) ?_
    (dports_spec hdp) ?_
  · intro d hd s hs
    obtain ⟨h1, h2⟩ := clean_fields hsp hs.2 hd
    obtain ⟨h3, h4⟩ := clean_fields (x := none) (y := none) hsp ⟨.inr rfl, .inr rfl⟩ hd
    have e1 : (forget 2 s).sport = none := rfl
    have e2 : (forget 2 s).sportRange = none := rfl
    rw [putSport_eq, putSport_eq, h1, h2, e1, e2, h3, h4]
    exact ⟨hs.1, rfl⟩
  · intro d hd s r hs hr he
    obtain ⟨h3, h4⟩ := clean_fields (x := none) (y := none) hsp ⟨.inr rfl, .inr rfl⟩ hd
    have e1 : (forget 2 s).sport = none := rfl
    have e2 : (forget 2 s).sportRange = none := rfl
    rw [putSport_eq, e1, e2, h3, h4] at he
    have hf : forget 2 (forget 1 r) = forget 2 s := by rw [he]; rfl
    have k1 : (forget 1 r).sport = single d := by rw [he]
    have k2 : (forget 1 r).sportRange = range d := by rw [he]
    refine ⟨⟨hr, ?_⟩, hf⟩
    have k1 : r.sport = single d := k1
    have k2 : r.sportRange = range d := k2
    rw [k1, k2]
    exact clean_again hsp hd

theorem daddrs_spec (hdp : OneKind dp) (hsp : OneKind sp) (hda : AllOrNone (· ≠ none) da) : ∀ s, J3 dp sp da s →
    J3 dp sp da (loop putDst (loop putSport (loop putDport (fun s => (s, [s])) dp) sp) da s).1 ∧
      forget 3 (loop putDst (loop putSport (loop putDport (fun s => (s, [s])) dp) sp) da s).1 = forget 3 s ∧
      (loop putDst (loop putSport (loop putDport (fun s => (s, [s])) dp) sp) da s).2 =
        da.flatMap fun b => sp.flatMap fun c => dp.flatMap fun d => [putDport d (putSport c (putDst b (forget 3 s)))] := by
  refine loop_spec (keep := forget 2) (I := J2 dp sp)
    (B := fun s => sp.flatMap fun c => dp.flatMap fun d => [putDport d (putSport c s)]) ?_ (sports_spec hdp hsp) ?_
  · intro d hd s hs
    cases d with
    | none =>
      rcases hs.2 with h | h
      · exact absurd rfl (h none hd)
      · exact ⟨hs.1, by simp [putDst, forget, h]⟩
    | some n => exact ⟨hs.1, rfl⟩
  · intro d hd s r hs hr he
    have hf : forget 3 r = forget 3 s := by
      have : forget 3 (forget 2 r) = forget 3 (putDst d (forget 3 s)) := by rw [he]
      cases d <;> exact this
    refine ⟨⟨hr, ?_⟩, hf⟩
    rcases hda with h | h
    · exact .inl h
    · refine .inr ?_
      have : (forget 2 r).dst = (putDst d (forget 3 s)).dst := by rw [he]
      rw [Classical.not_not.1 (h d hd)] at this
      exact this

theorem saddrs_spec (hdp : OneKind dp) (hsp : OneKind sp) (hda : AllOrNone (· ≠ none) da)
    (hsa : AllOrNone (· ≠ none) sa) : ∀ s, J4 dp sp da sa s →
    J4 dp sp da sa (loop putSrc (loop putDst (loop putSport (loop putDport (fun s => (s, [s])) dp) sp) da) sa s).1 ∧
      forget 4 (loop putSrc (loop putDst (loop putSport (loop putDport (fun s => (s, [s])) dp) sp) da) sa s).1 = forget 4 s ∧
      (loop putSrc (loop putDst (loop putSport (loop putDport (fun s => (s, [s])) dp) sp) da) sa s).2 =
        sa.flatMap fun a => da.flatMap fun b => sp.flatMap fun c => dp.flatMap fun d =>
          [putDport d (putSport c (putDst b (putSrc a (forget 4 s))))] := by
  refine loop_spec (keep := forget 3) (I := J3 dp sp da)
    (B := fun s => da.flatMap fun b => sp.flatMap fun c => dp.flatMap fun d => [putDport d (putSport c (putDst b s))]) ?_
    (daddrs_spec hdp hsp hda) ?_
  · intro d hd s hs
    cases d with
    | none =>
      rcases hs.2 with h | h
      · exact absurd rfl (h none hd)
      · exact ⟨hs.1, by simp [putSrc, forget, h]⟩
    | some n => exact ⟨hs.1, rfl⟩
  · intro d hd s r hs hr he
    have hf : forget 4 r = forget 4 s := by
      have : forget 4 (forget 3 r) = forget 4 (putSrc d (forget 4 s)) := by rw [he]
      cases d <;> exact this
    refine ⟨⟨hr, ?_⟩, hf⟩
    rcases hsa with h | h
    · exact .inl h
    · refine .inr ?_
      have : (forget 3 r).src = (putSrc d (forget 4 s)).src := by rw [he]
      rw [Classical.not_not.1 (h d hd)] at this
      exact this

/-- The rules for one protocol. -/
def block (v : Ver) (types : List (Option Nat)) (sa da : List (Option Net)) (sp dp : List PortRange) (s : Rule) :
    List Rule :=
  types.flatMap fun i => sa.flatMap fun a => da.flatMap fun b => sp.flatMap fun c => dp.flatMap fun d =>
    [putDport d (putSport c (putDst b (putSrc a (putIcmp v i s))))]

theorem types_spec (hdp : OneKind dp) (hsp : OneKind sp) (hda : AllOrNone (· ≠ none) da)
    (hsa : AllOrNone (· ≠ none) sa) (hty : AllOrNone (· ≠ none) types) : ∀ s, J5 dp sp da sa types s →
    J5 dp sp da sa types (loop (putIcmp v) (loop putSrc (loop putDst (loop putSport (loop putDport (fun s => (s, [s])) dp)
      sp) da) sa) types s).1 ∧
      forget 5 (loop (putIcmp v) (loop putSrc (loop putDst (loop putSport (loop putDport (fun s => (s, [s])) dp) sp) da)
        sa) types s).1 = forget 5 s ∧
      (loop (putIcmp v) (loop putSrc (loop putDst (loop putSport (loop putDport (fun s => (s, [s])) dp) sp) da) sa)
        types s).2 = block v types sa da sp dp (forget 5 s) := by
  refine loop_spec (keep := forget 4) (I := J4 dp sp da sa)
    (B := fun s => sa.flatMap fun a => da.flatMap fun b => sp.flatMap fun c => dp.flatMap fun d =>
      [putDport d (putSport c (putDst b (putSrc a s)))]) ?_ (saddrs_spec hdp hsp hda hsa) ?_
  · intro d hd s hs
    cases d with
    | none =>
      rcases hs.2 with h | h
      · exact absurd rfl (h none hd)
      · exact ⟨hs.1, by simp [putIcmp, forget, h]⟩
    | some n => exact ⟨hs.1, rfl⟩
  · intro d hd s r hs hr he
    have hf : forget 5 r = forget 5 s := by
      have : forget 5 (forget 4 r) = forget 5 (putIcmp v d (forget 5 s)) := by rw [he]
      cases d <;> exact this
    refine ⟨⟨hr, ?_⟩, hf⟩
    rcases hty with h | h
    · exact .inl h
    · refine .inr ?_
      have : (forget 4 r).icmp = (putIcmp v d (forget 5 s)).icmp := by rw [he]
      rw [Classical.not_not.1 (h d hd)] at this
      exact this

/-- Once a rule has flags, all further protocols are TCP. -/
def NoLeak (fl : Bool) (ps : List (Option Proto)) : Prop :=
  ps.Pairwise fun a b => fl = true → a = some (.str "tcp") → b = some (.str "tcp")

theorem protos_spec {body : Rule → Rule × List Rule} {I : Rule → Prop} {B : Rule → List Rule}
    (hI : ∀ fl p s, I s → I (putProto fl p s))
    (hb : ∀ s, I s → I (body s).1 ∧ forget 5 (body s).1 = forget 5 s ∧ (body s).2 = B (forget 5 s)) :
    ∀ {ps : List (Option Proto)} {s : Rule}, I s → NoLeak fl ps → ((∀ p ∈ ps, p ≠ none) ∨ s.proto = none ∧ ∀ p ∈ ps, p = none) →
      (s.flags = true → fl = true ∧ ∀ p ∈ ps, p = some (.str "tcp")) →
      (loop (putProto fl) body ps s).2 = ps.flatMap fun p => B (putProto fl p { action := s.action })
  | [], _, _, _, _, _ => rfl
  | p :: ps, s, hs, hl, hn, hf => by
    have e1 : forget 5 (putProto fl p s) = putProto fl p { action := s.action } := by
      cases p with
      | none =>
        rcases hn with h | ⟨h, _⟩
        · exact absurd rfl (h none (by simp))
        · have : s.flags = false := by
            cases e : s.flags with
            | false => rfl
            | true => exact absurd ((hf e).2 none (by simp)) (by simp)
          simp [putProto, forget, h, this]
      | some q =>
        have : (s.flags || (fl && decide (q = .str "tcp"))) = (fl && decide (q = .str "tcp")) := by
          cases e : s.flags with
          | false => rfl
          | true =>
            have := hf e
            have h2 := this.2 (some q) (by simp)
            simp [this.1, Option.some.inj h2]
        simp only [putProto, forget]
        rw [this]
        rfl
    obtain ⟨h1, h2, h3⟩ := hb _ (hI fl p s hs)
    rw [loop]
    dsimp only
    rw [h3, e1, List.flatMap_cons]
    have h4 : (body (putProto fl p s)).1.proto = (putProto fl p { action := s.action }).proto :=
      (show (forget 5 (body (putProto fl p s)).1).proto = _ by rw [h2, e1])
    have h5 : (body (putProto fl p s)).1.flags = (putProto fl p { action := s.action }).flags :=
      (show (forget 5 (body (putProto fl p s)).1).flags = _ by rw [h2, e1])
    have h6 : (body (putProto fl p s)).1.action = s.action := by
      have : (body (putProto fl p s)).1.action = (putProto fl p { action := s.action }).action :=
        (show (forget 5 (body (putProto fl p s)).1).action = _ by rw [h2, e1])
      rw [this]
      cases p <;> rfl
    have hl' := List.pairwise_cons.1 hl
    rw [protos_spec hI hb h1 hl'.2 ?_ ?_, h6]
    · rcases hn with h | ⟨_, h⟩
      · exact .inl fun q hq => h q (List.mem_cons_of_mem _ hq)
      · refine .inr ⟨?_, fun q hq => h q (List.mem_cons_of_mem _ hq)⟩
        rw [h4, h p (by simp)]
        rfl
    · intro hfl
      rw [h5] at hfl
      cases p with
      | none => cases hfl
      | some q =>
        have hfl : (false || (fl && decide (q = .str "tcp"))) = true := hfl
        simp only [Bool.false_or, Bool.and_eq_true, decide_eq_true_eq] at hfl
        exact ⟨hfl.1, fun x hx => hl'.1 x hx hfl.1 (by rw [hfl.2])⟩

theorem explode_spec (hdp : OneKind dp) (hsp : OneKind sp) (hda : AllOrNone (· ≠ none) da)
    (hsa : AllOrNone (· ≠ none) sa) (hty : AllOrNone (· ≠ none) types) (hl : NoLeak fl ps)
    (hps : AllOrNone (· ≠ none) ps) (action : String) :
    explode v fl ps types sa da sp dp { action := action } =
      ps.flatMap fun p => block v types sa da sp dp (putProto fl p { action := action }) := by
  refine protos_spec (I := J5 dp sp da sa types) ?_ (types_spec hdp hsp hda hsa hty) ?_ hl ?_ ?_
  · intro fl p s h
    cases p <;> exact h
  · exact ⟨⟨⟨⟨⟨.inr rfl, .inr rfl⟩, .inr rfl, .inr rfl⟩, .inr rfl⟩, .inr rfl⟩, .inr rfl⟩
  · exact hps.imp id fun h => ⟨rfl, fun p hp => Classical.not_not.1 (h p hp)⟩
  · intro h
    cases h

/-! ### numbering -/

/-- The rules with names and priorities, `k` being the number of rules before. -/
def numbered (name : String) : Nat → List Rule → List (String × Entry)
  | _, [] => []
  | k, r :: rs => (name ++ "|RULE_" ++ toString (10 * (k + 1)), ⟨65536 - 10 * (k + 1), r⟩) :: numbered name (k + 1) rs

theorem key_inj {name : String} {i j : Nat} (h : name ++ "|RULE_" ++ toString i = name ++ "|RULE_" ++ toString j) :
    i = j := by
  have := congrArg String.toList h
  rw [String.toList_append, String.toList_append (t := toString j)] at this
  have := List.append_cancel_left this
  exact Nat.repr_inj.1 (String.toList_inj.1 this)

theorem number_spec {name : String} : ∀ {rs : List Rule} {k n : Nat} {acc l : List (String × Entry)},
    number name k acc rs = .ok (n, l) →
    (∀ e ∈ acc, ∃ j, j ≤ k ∧ e.1 = name ++ "|RULE_" ++ toString (10 * j)) →
    n = k + rs.length ∧ l = acc ++ numbered name k rs ∧ (rs ≠ [] → 10 * n ≤ 65536)
  | [], k, n, acc, l, h, _ => by
    cases h
    simp [numbered]
  | r :: rs, k, n, acc, l, h, ha => by
    rw [number] at h
    split at h
    · cases h
    next hlt =>
    have hk : setKey (name ++ "|RULE_" ++ toString (10 * (k + 1))) ⟨65536 - 10 * (k + 1), r⟩ acc =
        acc ++ [(name ++ "|RULE_" ++ toString (10 * (k + 1)), ⟨65536 - 10 * (k + 1), r⟩)] := by
      unfold setKey
      rw [if_neg]
      intro h
      obtain ⟨e, he, h⟩ := List.any_eq_true.1 h
      obtain ⟨j, hj, e1⟩ := ha e he
      have h := eq_of_beq h
      rw [e1] at h
      have := key_inj h
      omega
    rw [hk] at h
    have hacc : ∀ e ∈ acc ++ [(name ++ "|RULE_" ++ toString (10 * (k + 1)), (⟨65536 - 10 * (k + 1), r⟩ : Entry))],
        ∃ j, j ≤ k + 1 ∧ e.1 = name ++ "|RULE_" ++ toString (10 * j) := by
      intro e he
      rcases List.mem_append.1 he with he | he
      · obtain ⟨j, hj, e1⟩ := ha e he
        exact ⟨j, by omega, e1⟩
      · rw [List.mem_singleton.1 he]
        exact ⟨k + 1, by omega, rfl⟩
    obtain ⟨h1, h2, h3⟩ := number_spec h hacc
    refine ⟨by rw [h1, List.length_cons]; omega, by rw [h2, numbered, List.append_assoc]; rfl, fun _ => ?_⟩
    by_cases h0 : rs = []
    · rw [h0] at h1
      simp only [List.length_nil] at h1
      omega
    · exact h3 h0

theorem numbered_rule {name : String} : ∀ {rs : List Rule} {k : Nat}, (numbered name k rs).map (fun e => e.2.rule) = rs
  | [], _ => rfl
  | r :: rs, k => by rw [numbered, List.map_cons, numbered_rule]

theorem numbered_mem {name : String} : ∀ {rs : List Rule} {k : Nat} {e : String × Entry}, e ∈ numbered name k rs →
    ∃ j, k < j ∧ j ≤ k + rs.length ∧ e.1 = name ++ "|RULE_" ++ toString (10 * j) ∧ e.2.priority = 65536 - 10 * j
  | [], _, _, h => by cases h
  | r :: rs, k, e, h => by
    rw [numbered] at h
    rw [List.length_cons]
    rcases List.mem_cons.1 h with rfl | h
    · exact ⟨k + 1, by omega, by omega, rfl, rfl⟩
    · obtain ⟨j, h1, h2, h3⟩ := numbered_mem h
      exact ⟨j, by omega, by omega, h3⟩

theorem numbered_pairwise {name : String} : ∀ {rs : List Rule} {k : Nat}, 10 * (k + rs.length) ≤ 65536 →
    (numbered name k rs).Pairwise fun e f => e.2.priority > f.2.priority
  | [], _, _ => .nil
  | r :: rs, k, h => by
    rw [List.length_cons] at h
    rw [numbered, List.pairwise_cons]
    refine ⟨fun e he => ?_, numbered_pairwise (by omega)⟩
    obtain ⟨j, h1, h2, _, h3⟩ := numbered_mem he
    rw [h3]
    show 65536 - 10 * (k + 1) > 65536 - 10 * j
    omega

end Verif.Sonic
