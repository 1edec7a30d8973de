import Verif.Spec.Flat
import Verif.Model.OpenConfig
import Verif.Lemmas.Basic
import Verif.Lemmas.FirstMatch

/-!
Lemmas about loops over a shared dictionary, and about flat rules.
-/

namespace Verif.OpenConfig

/-- A loop over a shared dictionary gives what separate dictionaries would give, if every element sets its field or the
field is never set. `keep` forgets the fields that the inner loops set, `keep'` also the field of this loop. -/
theorem loop_spec {S A R : Type} {put : A → S → S} {body : S → S × List R} {keep keep' : S → S} {I I' : S → Prop}
    {B : S → List R} : ∀ {l : List A},
    (∀ a ∈ l, ∀ s, I' s → I (put a s) ∧ keep (put a s) = put a (keep' s)) →
    (∀ s, I s → I (body s).1 ∧ keep (body s).1 = keep s ∧ (body s).2 = B (keep s)) →
    (∀ a ∈ l, ∀ s r, I' s → I r → keep r = put a (keep' s) → I' r ∧ keep' r = keep' s) →
    ∀ s, I' s → I' (loop put body l s).1 ∧ keep' (loop put body l s).1 = keep' s ∧
      (loop put body l s).2 = l.flatMap fun a => B (put a (keep' s))
  | [], _, _, _, s, h => ⟨h, rfl, rfl⟩
  | a :: as, h1, h2, h3, s, h => by
    obtain ⟨h4, h5⟩ := h1 a (by simp) s h
    obtain ⟨h6, h7, h8⟩ := h2 _ h4
    obtain ⟨h9, h10⟩ := h3 a (by simp) s _ h h6 (h7.trans h5)
    obtain ⟨h11, h12, h13⟩ := loop_spec (fun b hb => h1 b (List.mem_cons_of_mem _ hb)) h2
      (fun b hb => h3 b (List.mem_cons_of_mem _ hb)) _ h9
    rw [loop]
    refine ⟨h11, h12.trans h10, ?_⟩
    rw [h13, h8, h5, h10, List.flatMap_cons]

end Verif.OpenConfig

namespace Verif.Spec.Flat
open Verif Verif.Spec Policy Aclgenerator Nacaddr

theorem covers_iff {n : Net} (w : WF n) (v : Ver) (x : Nat) : Covers (n.ver, n.addr, n.plen) v x ↔ Mem n v x := by
  rw [Cisco.mem_iff_div w]
  unfold Covers
  constructor
  · rintro ⟨rfl, h⟩
    exact ⟨rfl, h⟩
  · rintro ⟨rfl, h⟩
    exact ⟨rfl, h⟩

theorem ifSet_none {α : Type} {P : α → Prop} : IfSet none P := by rintro _ ⟨⟩

theorem ifSet_some {α : Type} {P : α → Prop} {a : α} : IfSet (some a) P ↔ P a :=
  ⟨fun h => h a rfl, fun h b e => by cases e; exact h⟩

theorem numberIs_iff {s : String} {n : Int} (h : protoMap.lookup s = some n) {p : Packet} (hp : p.proto ∈ iana.map Prod.fst) :
    NumberIs p n ↔ p.proto = s := by
  have hm := Cisco.mem_of_lookup' h
  have key : ∀ e ∈ protoMap, ∀ i ∈ iana, e.2 = (i.2 : Int) ↔ i.1 = e.1 := by decide
  unfold NumberIs
  constructor
  · rintro ⟨k, h1, h2⟩
    exact (key _ hm _ h1).1 h2
  · rintro rfl
    obtain ⟨i, hi, e⟩ := List.mem_map.1 hp
    refine ⟨i.2, by rw [← e]; exact hi, (key _ hm _ hi).2 e⟩

end Verif.Spec.Flat
