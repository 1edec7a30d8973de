import Verif.Spec.OpenConfig
import Verif.Lemmas.Flat

/-!
Lemmas about the model of capirca/lib/openconfig.py.
-/

namespace Verif.OpenConfig
open Verif Verif.Spec Policy Aclgenerator

/-! ### the loops over a shared dictionary -/

/-- The range is not the mark for any port. -/
def Sets (r : PortRange) : Prop := ¬ (r.1 = r.2 ∧ r.2 = 0)

/-- All elements satisfy the predicate or none does. -/
def AllOrNone {α : Type} (P : α → Prop) (l : List α) : Prop := (∀ a ∈ l, P a) ∨ ∀ a ∈ l, ¬ P a

/-- Forget fields, from the innermost loop outwards. -/
def forget (k : Nat) (s : Ace) : Ace where
  action := s.action
  src := if 4 ≤ k then none else s.src
  dst := if 3 ≤ k then none else s.dst
  sport := if 2 ≤ k then none else s.sport
  dport := if 1 ≤ k then none else s.dport

variable {v : Ver} {opts : List String} {sa da : List (Option Net)} {sp dp : List PortRange} {ps : List Proto}

/-- The entry for one element of each list. -/
def ruleOf (v : Ver) (opts : List String) (s : Ace) (p : Proto) : Ace :=
  { s with proto := protoValue p, detail := opts.foldl (optDetail v p) none }

def I0 (ps : List Proto) (s : Ace) : Prop := s.detail = none ∧ ((∀ p ∈ ps, protoValue p ≠ none) ∨ s.proto = none)
def I1 (ps : List Proto) (dp : List PortRange) (s : Ace) : Prop := I0 ps s ∧ ((∀ r ∈ dp, Sets r) ∨ s.dport = none)
def I2 (ps : List Proto) (dp sp : List PortRange) (s : Ace) : Prop := I1 ps dp s ∧ ((∀ r ∈ sp, Sets r) ∨ s.sport = none)
def I3 (ps : List Proto) (dp sp : List PortRange) (da : List (Option Net)) (s : Ace) : Prop :=
  I2 ps dp sp s ∧ ((∀ a ∈ da, a ≠ none) ∨ s.dst = none)
def I4 (ps : List Proto) (dp sp : List PortRange) (da sa : List (Option Net)) (s : Ace) : Prop :=
  I3 ps dp sp da s ∧ ((∀ a ∈ sa, a ≠ none) ∨ s.src = none)

theorem protoLoop_spec (hps : AllOrNone (fun p => protoValue p ≠ none) ps) : ∀ s, I0 ps s →
    I0 ps (protoLoop v opts ps s).1 ∧ forget 0 (protoLoop v opts ps s).1 = forget 0 s ∧
      (protoLoop v opts ps s).2 = ps.map (ruleOf v opts (forget 0 s)) := by
  have key : ∀ qs, (∀ q ∈ qs, q ∈ ps) → ∀ s, I0 ps s → I0 ps (protoLoop v opts qs s).1 ∧
      forget 0 (protoLoop v opts qs s).1 = forget 0 s ∧
      (protoLoop v opts qs s).2 = qs.map (ruleOf v opts (forget 0 s)) := by
    intro qs
    induction qs with
    | nil => exact fun _ s h => ⟨h, rfl, rfl⟩
    | cons q qs ih =>
      intro hq s hs
      have h0 : forget 0 (putProto q s) = forget 0 s := by
        unfold putProto
        split <;> rfl
      have h1 : (putProto q s).proto = protoValue q := by
        unfold putProto
        split
        next e =>
          rw [e]
          rcases hs.2 with h | h
          · exact absurd e (h q (hq q (by simp)))
          · exact h
        next e => exact e.symm
      have h2 : (putProto q s).detail = none := by
        unfold putProto
        split
        · exact hs.1
        · exact hs.1
      have hI : I0 ps (putProto q s) := by
        refine ⟨h2, ?_⟩
        rcases hps with h | h
        · exact .inl h
        · refine .inr ?_
          rw [h1]
          exact Classical.not_not.1 (h q (hq q (by simp)))
      obtain ⟨h3, h4, h5⟩ := ih (fun x hx => hq x (List.mem_cons_of_mem _ hx)) _ hI
      rw [protoLoop]
      refine ⟨h3, h4.trans h0, ?_⟩
      dsimp only
      rw [h5, h0, List.map_cons]
      congr 1
      unfold ruleOf
      rw [← h1, ← h0]
      rfl
  exact key ps fun _ h => h

theorem putDport_forget {r : PortRange} {s : Ace} (h : Sets r ∨ s.dport = none) :
    forget 0 (putDport r s) = putDport r (forget 1 s) := by
  unfold putDport
  split
  next e => rcases h with h | h
            · exact absurd e h
            · simp [forget, h]
  · rfl

theorem dportLoop_spec (hps : AllOrNone (fun p => protoValue p ≠ none) ps) (hdp : AllOrNone Sets dp) : ∀ s, I1 ps dp s →
    I1 ps dp (loop putDport (protoLoop v opts ps) dp s).1 ∧
      forget 1 (loop putDport (protoLoop v opts ps) dp s).1 = forget 1 s ∧
      (loop putDport (protoLoop v opts ps) dp s).2 =
        dp.flatMap fun d => ps.map (ruleOf v opts (putDport d (forget 1 s))) := by
  refine loop_spec (keep := forget 0) (I := I0 ps) (B := fun s => ps.map (ruleOf v opts s)) ?_ (protoLoop_spec hps) ?_
  · intro d hd s hs
    refine ⟨?_, putDport_forget (hs.2.imp (fun h => h d hd) id)⟩
    unfold putDport
    split
    · exact hs.1
    · exact hs.1
  · intro d hd s r hs hr he
    have hf : forget 1 r = forget 1 s := by
      have : forget 1 (forget 0 r) = forget 1 (putDport d (forget 1 s)) := by rw [he]
      unfold putDport at this
      split at this <;> exact this
    refine ⟨⟨hr, ?_⟩, hf⟩
    rcases hdp with h | h
    · exact .inl h
    · refine .inr ?_
      have : (forget 0 r).dport = (putDport d (forget 1 s)).dport := by rw [he]
      unfold putDport at this
      rw [if_pos (Classical.not_not.1 (h d hd))] at this
      exact this

theorem sportLoop_spec (hps : AllOrNone (fun p => protoValue p ≠ none) ps) (hdp : AllOrNone Sets dp)
    (hsp : AllOrNone Sets sp) : ∀ s, I2 ps dp sp s →
    I2 ps dp sp (loop putSport (loop putDport (protoLoop v opts ps) dp) sp s).1 ∧
      forget 2 (loop putSport (loop putDport (protoLoop v opts ps) dp) sp s).1 = forget 2 s ∧
      (loop putSport (loop putDport (protoLoop v opts ps) dp) sp s).2 =
        sp.flatMap fun c => dp.flatMap fun d => ps.map (ruleOf v opts (putDport d (putSport c (forget 2 s)))) := by
  refine loop_spec (keep := forget 1) (I := I1 ps dp)
    (B := fun s => dp.flatMap fun d => ps.map (ruleOf v opts (putDport d s))) ?_ (dportLoop_spec hps hdp) ?_
  · intro d hd s hs
    refine ⟨?_, ?_⟩
    · unfold putSport
      split
      · exact hs.1
      · exact hs.1
    · unfold putSport
      split
      next e => rcases hs.2 with h | h
                · exact absurd e (h d hd)
                · simp [forget, h]
      · rfl
  · intro d hd s r hs hr he
    have hf : forget 2 r = forget 2 s := by
      have : forget 2 (forget 1 r) = forget 2 (putSport d (forget 2 s)) := by rw [he]
      unfold putSport at this
      split at this <;> exact this
    refine ⟨⟨hr, ?_⟩, hf⟩
    rcases hsp with h | h
    · exact .inl h
    · refine .inr ?_
      have : (forget 1 r).sport = (putSport d (forget 2 s)).sport := by rw [he]
      unfold putSport at this
      rw [if_pos (Classical.not_not.1 (h d hd))] at this
      exact this

theorem daddrLoop_spec (hps : AllOrNone (fun p => protoValue p ≠ none) ps) (hdp : AllOrNone Sets dp)
    (hsp : AllOrNone Sets sp) (hda : AllOrNone (· ≠ none) da) : ∀ s, I3 ps dp sp da s →
    I3 ps dp sp da (loop putDst (loop putSport (loop putDport (protoLoop v opts ps) dp) sp) da s).1 ∧
      forget 3 (loop putDst (loop putSport (loop putDport (protoLoop v opts ps) dp) sp) da s).1 = forget 3 s ∧
      (loop putDst (loop putSport (loop putDport (protoLoop v opts ps) dp) sp) da s).2 =
        da.flatMap fun b => sp.flatMap fun c => dp.flatMap fun d =>
          ps.map (ruleOf v opts (putDport d (putSport c (putDst b (forget 3 s))))) := by
  refine loop_spec (keep := forget 2) (I := I2 ps dp sp)
    (B := fun s => sp.flatMap fun c => dp.flatMap fun d => ps.map (ruleOf v opts (putDport d (putSport c s)))) ?_
    (sportLoop_spec hps hdp hsp) ?_
  · intro d hd s hs
    cases d with
    | none =>
      rcases hs.2 with h | h
      · exact absurd rfl (h none hd)
      · exact ⟨hs.1, by simp [putDst, forget, h]⟩
    | some n => exact ⟨hs.1, rfl⟩
  · intro d hd s r hs hr he
    have hf : forget 3 r = forget 3 s := by
      have : forget 3 (forget 2 r) = forget 3 (putDst d (forget 3 s)) := by rw [he]
      cases d <;> exact this
    refine ⟨⟨hr, ?_⟩, hf⟩
    rcases hda with h | h
    · exact .inl h
    · refine .inr ?_
      have : (forget 2 r).dst = (putDst d (forget 3 s)).dst := by rw [he]
      rw [Classical.not_not.1 (h d hd)] at this
      exact this

theorem saddrLoop_spec (hps : AllOrNone (fun p => protoValue p ≠ none) ps) (hdp : AllOrNone Sets dp)
    (hsp : AllOrNone Sets sp) (hda : AllOrNone (· ≠ none) da) (hsa : AllOrNone (· ≠ none) sa) (action : String) :
    explode v opts sa da sp dp ps { action := action } =
      sa.flatMap fun a => da.flatMap fun b => sp.flatMap fun c => dp.flatMap fun d =>
        ps.map (ruleOf v opts (putDport d (putSport c (putDst b (putSrc a { action := action }))))) := by
  have := (loop_spec (keep := forget 3) (keep' := forget 4) (I := I3 ps dp sp da) (I' := I4 ps dp sp da sa)
    (B := fun s => da.flatMap fun b => sp.flatMap fun c => dp.flatMap fun d =>
      ps.map (ruleOf v opts (putDport d (putSport c (putDst b s))))) (put := putSrc) (l := sa) ?_
    (daddrLoop_spec hps hdp hsp hda) ?_ { action := action } ?_).2.2
  · exact this
  · intro d hd s hs
    cases d with
    | none =>
      rcases hs.2 with h | h
      · exact absurd rfl (h none hd)
      · exact ⟨hs.1, by simp [putSrc, forget, h]⟩
    | some n => exact ⟨hs.1, rfl⟩
  · intro d hd s r hs hr he
    have hf : forget 4 r = forget 4 s := by
      have : forget 4 (forget 3 r) = forget 4 (putSrc d (forget 4 s)) := by rw [he]
      cases d <;> exact this
    refine ⟨⟨hr, ?_⟩, hf⟩
    rcases hsa with h | h
    · exact .inl h
    · refine .inr ?_
      have : (forget 3 r).src = (putSrc d (forget 4 s)).src := by rw [he]
      rw [Classical.not_not.1 (h d hd)] at this
      exact this
  · exact ⟨⟨⟨⟨⟨rfl, .inr rfl⟩, .inr rfl⟩, .inr rfl⟩, .inr rfl⟩, .inr rfl⟩

end Verif.OpenConfig
