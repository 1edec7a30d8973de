import Verif.Spec.GcpHf
import Verif.Lemmas.Gce
import Verif.Lemmas.Basic
import Verif.Lemmas.FirstMatch

/-!
Lemmas about the model of capirca/lib/gcp_hf.py.
-/

namespace Verif.GcpHf
open Verif Verif.Spec Verif.Spec.GcpHf Policy Aclgenerator Verif.Props Nacaddr

/-! ### addresses -/

theorem mem_addresses {v : Ver} {l : List Net} {n : Net} :
    n ∈ addresses v l ↔ n ∈ l ∧ n.ver = v ∧ Gce.embedded n = false := by
  unfold addresses getAddressOfVersion
  rw [List.mem_filter, List.mem_filter]
  simp [and_assoc]

theorem addresses_den {v : Ver} {l : List Net} (he : ∀ n ∈ l, Gce.embedded n = false) (w : Ver) (x : Nat) :
    Den (addresses v l) w x ↔ w = v ∧ Den l v x := by
  unfold Den
  constructor
  · rintro ⟨n, hn, h⟩
    obtain ⟨h1, h2, _⟩ := mem_addresses.1 hn
    have : w = v := h.1.symm.trans h2
    exact ⟨this, n, h1, this ▸ h⟩
  · rintro ⟨rfl, n, hn, h⟩
    exact ⟨n, mem_addresses.2 ⟨hn, h.1, he n hn⟩, h⟩

theorem anyIp_wf (v : Ver) : WF (Gce.anyIp v) := by cases v <;> decide

theorem anyIp_mem {v w : Ver} {x : Nat} (hx : x < 2 ^ w.bits) : Den [Gce.anyIp v] w x ↔ w = v := by
  constructor
  · rintro ⟨n, hn, h⟩
    rw [List.mem_singleton.1 hn] at h
    exact h.1.symm
  · rintro rfl
    refine ⟨_, List.mem_singleton.2 rfl, rfl, Nat.zero_le _, ?_⟩
    simpa [Gce.anyIp] using hx

/-! ### the rules of one side -/

theorem numbered_iff {put : List Net → Rule → Rule} {r x : Rule} : ∀ {i : Nat} {cs : List (List Net)},
    x ∈ numbered put r i cs → ∃ ch ∈ cs, ∃ j, x = put ch { r with priority := j }
  | i, [], h => by cases h
  | i, ch :: cs, h => by
    rw [numbered] at h
    rcases List.mem_cons.1 h with rfl | h
    · exact ⟨ch, by simp, _, rfl⟩
    · obtain ⟨ch', h1, h2⟩ := numbered_iff h
      exact ⟨ch', List.mem_cons_of_mem _ h1, h2⟩

theorem numbered_some {put : List Net → Rule → Rule} {r : Rule} {ch : List Net} : ∀ {i : Nat} {cs : List (List Net)},
    ch ∈ cs → ∃ j, put ch { r with priority := j } ∈ numbered put r i cs
  | i, [], h => by cases h
  | i, c :: cs, h => by
    rw [numbered]
    rcases List.mem_cons.1 h with rfl | h
    · exact ⟨i, by simp⟩
    · obtain ⟨j, h1⟩ := numbered_some h
      exact ⟨j, List.mem_cons_of_mem _ h1⟩

theorem numbered_priority {put : List Net → Rule → Rule} (hp : ∀ ch r, (put ch r).priority = r.priority) {r : Rule} :
    ∀ {i : Nat} {cs : List (List Net)}, (numbered put r i cs).map Rule.priority = List.range' i (numbered put r i cs).length
  | i, [] => rfl
  | i, ch :: cs => by
    rw [numbered]
    simp only [List.map_cons, List.length_cons, List.range'_succ, hp, numbered_priority hp]

/-- The packets a side is rendered for in a pass. -/
def Peer (l : List Net) (intel : List String) (listed : String → Bool) (v6 : Bool) (v w : Ver) (x : Nat) : Prop :=
  (l = [] ∧ intel ≠ [] ∧ v6 = false ∧ ∃ n ∈ intel, listed n = true) ∨
  ((l ≠ [] ∨ intel = []) ∧ w = v ∧ (l = [] ∨ Den l v x))

theorem side_hits {put : List Net → Rule → Rule} {v6 : Bool} {v : Ver} {l : List Net} {intel : List String} {r : Rule}
    {P : Rule → Prop} {C : Prop} {listed : String → Bool} {w : Ver} {x : Nat}
    (hp : ∀ ch i, P (put ch { r with priority := i }) ↔ C ∧ Given ch intel listed w x)
    (h0 : P r ↔ C ∧ Given [] intel listed w x) (hw : ∀ n ∈ l, WF n) (he : ∀ n ∈ l, Gce.embedded n = false)
    (hor : l = [] ∨ intel = []) (hx : x < 2 ^ w.bits) :
    (∃ y ∈ sideRules put v6 v l intel r, P y) ↔ C ∧ Peer l intel listed v6 v w x := by
  have key : ∀ m : List Net, (∀ n ∈ m, WF n) → intel = [] →
      ((∃ y ∈ numbered put r r.priority (CloudArmor.chunks 256 m), P y) ↔ C ∧ Den m w x) := by
    intro m hm hi
    rw [← Gce.inRanges_den hm, ← Gce.chunks_ranges]
    constructor
    · rintro ⟨y, hy, h⟩
      obtain ⟨ch, h1, j, rfl⟩ := numbered_iff hy
      obtain ⟨h2, h3⟩ := (hp _ _).1 h
      rcases h3 with h3 | h3 | h3
      · exact absurd h3.1 (CloudArmor.chunks_mem (by decide) h1).1
      · exact ⟨h2, ch, h1, h3⟩
      · rw [hi] at h3
        simp at h3
    · rintro ⟨h1, ch, h2, h3⟩
      obtain ⟨j, h4⟩ := numbered_some (put := put) (r := r) (i := r.priority) h2
      exact ⟨_, h4, (hp _ _).2 ⟨h1, .inr (.inl h3)⟩⟩
  unfold sideRules Peer
  by_cases hl : l = []
  · subst hl
    have ha : addresses v [] = [] := rfl
    by_cases hi : intel = []
    · subst hi
      rw [ha, if_neg (by simp), if_neg (by simp), if_pos (by simp), key _ (by simp [anyIp_wf]) rfl, anyIp_mem hx]
      simp
    · rw [ha, if_neg (by simp), if_pos (by simp [hi])]
      cases v6
      · simp only [Bool.false_eq_true, if_false, List.mem_singleton, exists_eq_left, h0, Given]
        refine and_congr Iff.rfl ?_
        simp [hi, Gce.InRanges]
      · simp [hi]
  · have hi := hor.resolve_left hl
    subst hi
    have hw' : ∀ n ∈ addresses v l, WF n := fun n hn => hw n (mem_addresses.1 hn).1
    have hd := addresses_den (v := v) he w x
    by_cases ha : addresses v l = []
    · rw [if_pos (by simp [hl, ha])]
      rw [ha] at hd
      refine iff_of_false (by simp) ?_
      rintro ⟨_, ⟨h, _⟩ | ⟨_, h1, h2⟩⟩
      · exact hl h
      · have := hd.2 ⟨h1, h2.resolve_left hl⟩
        simp [Den] at this
    · rw [if_neg (by simp [ha]), if_neg (by simp), if_neg (by simpa using ha), key _ hw' rfl, hd]
      simp [hl]

/-- What the rules of a side are like. -/
theorem side_mem {put : List Net → Rule → Rule} {v6 : Bool} {v : Ver} {l : List Net} {intel : List String} {r y : Rule}
    (h : y ∈ sideRules put v6 v l intel r) : (y = r ∧ intel ≠ []) ∨
      ∃ ch j, ch ≠ [] ∧ ch.length ≤ 256 ∧ (∀ n ∈ ch, n.ver = v) ∧ y = put ch { r with priority := j } := by
  unfold sideRules at h
  split at h
  · cases h
  · split at h
    next hi =>
      split at h
      · cases h
      · simp only [Bool.and_eq_true, List.isEmpty_iff, Bool.not_eq_true', List.isEmpty_eq_false_iff] at hi
        exact .inl ⟨List.mem_singleton.1 h, hi.2⟩
    · obtain ⟨ch, h1, j, rfl⟩ := numbered_iff h
      obtain ⟨h2, h3⟩ := CloudArmor.chunks_mem (by decide) h1
      refine .inr ⟨ch, j, h2, h3, fun n hn => ?_, rfl⟩
      have : n ∈ (CloudArmor.chunks 256 (if (addresses v l).isEmpty then [Gce.anyIp v] else addresses v l)).flatten :=
        List.mem_flatten.2 ⟨ch, h1, hn⟩
      rw [CloudArmor.chunks_flatten (by decide)] at this
      split at this
      · rw [List.mem_singleton.1 this]; rfl
      · exact (mem_addresses.1 this).2.1

theorem side_priority {put : List Net → Rule → Rule} (hp : ∀ ch r, (put ch r).priority = r.priority) {v6 : Bool} {v : Ver}
    {l : List Net} {intel : List String} {r : Rule} :
    (sideRules put v6 v l intel r).map Rule.priority = List.range' r.priority (sideRules put v6 v l intel r).length := by
  unfold sideRules
  split
  · rfl
  · split
    · split <;> rfl
    · exact numbered_priority hp

/-- The lists of any address do not matter. -/
theorem side_any {put : List Net → Rule → Rule} {v6 : Bool} {v : Ver} {vs : List Ver} {r : Rule} (hv : vs = [v] ∨ vs = [.v4, .v6]) :
    sideRules put v6 v (vs.map Gce.anyIp) [] r = sideRules put v6 v [] [] r := by
  have : addresses v (vs.map Gce.anyIp) = [Gce.anyIp v] := by
    rcases hv with rfl | rfl <;> cases v <;> decide
  have h0 : addresses v [] = [] := rfl
  unfold sideRules
  rw [this, h0]
  simp

/-! ### protocols -/

theorem entryOf_ok {ports : List PortRange} {q : Proto} {e : Gce.Entry} (h : entryOf ports q = .ok e) :
    e.ports = ports ∧ ∃ s, q = .str s ∧ e.proto = Gce.protoNumber (.str s) := by
  cases q with
  | num n => cases h
  | str s =>
    unfold entryOf at h
    dsimp only at h
    split at h
    next hc =>
      cases h
      refine ⟨rfl, s, rfl, ?_⟩
      unfold Gce.protoNumber
      dsimp only
      rw [if_pos hc]
    next hc =>
      split at h
      next n hn =>
        cases h
        refine ⟨rfl, s, rfl, ?_⟩
        unfold Gce.protoNumber
        dsimp only
        rw [if_neg hc, hn]
      · cases h

end Verif.GcpHf
