import Verif.Spec.CloudArmor
import Verif.Lemmas.Basic
import Verif.Lemmas.FirstMatch

/-!
Lemmas about the model of capirca/lib/cloudarmor.py.
-/

namespace Verif.CloudArmor
open Verif Verif.Spec Verif.Spec.Armor Policy Aclgenerator Verif.Props

theorem chunksAux_flatten {α : Type} {n : Nat} (hn : 0 < n) : ∀ (k : Nat) (l : List α), l.length ≤ k →
    (chunksAux n k l).flatten = l
  | 0, l, h => by
    cases l with
    | nil => rfl
    | cons => simp at h
  | k + 1, l, h => by
    rw [chunksAux]
    split
    next e => simp_all
    next e =>
      have hl : l ≠ [] := by simpa using e
      have : 0 < l.length := List.length_pos_iff.2 hl
      rw [List.flatten_cons, chunksAux_flatten hn k (l.drop n) (by rw [List.length_drop]; omega), List.take_append_drop]

theorem chunksAux_mem {α : Type} {n : Nat} (hn : 0 < n) : ∀ (k : Nat) (l : List α), ∀ c ∈ chunksAux n k l,
    c ≠ [] ∧ c.length ≤ n
  | 0, _, _, h => by simp [chunksAux] at h
  | k + 1, l, c, h => by
    rw [chunksAux] at h
    split at h
    · cases h
    next e =>
      have hl : l ≠ [] := by simpa using e
      rcases List.mem_cons.1 h with rfl | h
      · refine ⟨?_, by rw [List.length_take]; omega⟩
        intro he
        rw [List.take_eq_nil_iff] at he
        rcases he with he | he
        · omega
        · exact hl he
      · exact chunksAux_mem hn k _ c h

theorem chunks_flatten {α : Type} {n : Nat} (hn : 0 < n) (l : List α) : (chunks n l).flatten = l :=
  chunksAux_flatten hn _ _ (Nat.le_refl _)

theorem chunks_mem {α : Type} {n : Nat} (hn : 0 < n) {l c : List α} (h : c ∈ chunks n l) : c ≠ [] ∧ c.length ≤ n :=
  chunksAux_mem hn _ _ c h

theorem chunks_nil {α : Type} {n : Nat} (hn : 0 < n) {l : List α} : chunks n l = [] ↔ l = [] := by
  constructor
  · intro h
    rw [← chunks_flatten hn l, h]
    rfl
  · rintro rfl
    rfl

theorem chunkRules_length {desc : Option Str} {action : String} {prio n : Nat} : ∀ {i : Nat} {cs : List (List Net)},
    (chunkRules desc action prio n i cs).length = cs.length
  | _, [] => rfl
  | _, _ :: _ => by rw [chunkRules, List.length_cons, chunkRules_length, List.length_cons]

theorem chunkRules_mem {desc : Option Str} {action : String} {prio n : Nat} {r : Rule} : ∀ {i : Nat} {cs : List (List Net)},
    r ∈ chunkRules desc action prio n i cs → ∃ j c, i ≤ j ∧ j < i + cs.length ∧ c ∈ cs ∧ r = chunkRule desc action prio n j c
  | _, [], h => by cases h
  | i, c :: cs, h => by
    rw [chunkRules] at h
    rcases List.mem_cons.1 h with rfl | h
    · exact ⟨i, c, Nat.le_refl _, by simp, by simp, rfl⟩
    · obtain ⟨j, d, h1, h2, h3, h4⟩ := chunkRules_mem h
      exact ⟨j, d, by omega, by rw [List.length_cons]; omega, List.mem_cons_of_mem _ h3, h4⟩

theorem chunkRules_prio {desc : Option Str} {action : String} {prio n : Nat} : ∀ {i : Nat} {cs : List (List Net)},
    (chunkRules desc action prio n i cs).map Rule.priority = List.range' (prio + i) cs.length
  | _, [] => rfl
  | i, c :: cs => by
    rw [chunkRules, List.map_cons, chunkRules_prio, List.length_cons, List.range'_succ]
    rfl

theorem chunkRules_ranges {desc : Option Str} {action : String} {prio n : Nat} : ∀ {i : Nat} {cs : List (List Net)},
    (chunkRules desc action prio n i cs).map Rule.ranges = cs.map fun c => c.map fun a => Range.net a.ver a.addr a.plen
  | _, [] => rfl
  | i, c :: cs => by
    rw [chunkRules, List.map_cons, chunkRules_ranges]
    rfl

theorem rulesFor_prio {desc : Option Str} {action : String} {prio : Nat} {l : List Net} :
    (rulesFor desc action prio l).map Rule.priority = List.range' prio (rulesFor desc action prio l).length := by
  unfold rulesFor
  split
  · rfl
  · rw [chunkRules_prio, chunkRules_length]
    rfl

theorem rulesFor_action {desc : Option Str} {action : String} {prio : Nat} {l : List Net} :
    ∀ r ∈ rulesFor desc action prio l, r.action = action := by
  unfold rulesFor
  intro r hr
  split at hr
  · rw [List.mem_singleton.1 hr]
  · obtain ⟨j, c, _, _, _, rfl⟩ := chunkRules_mem hr
    rfl

theorem rulesFor_hits {desc : Option Str} {action : String} {prio : Nat} {l : List Net} (hw : ∀ n ∈ l, WF n) {p : Packet} :
    (∃ r ∈ rulesFor desc action prio l, Hits r p) ↔ l = [] ∨ Den l p.ver p.src := by
  unfold rulesFor
  by_cases he : l = []
  · rw [if_pos (by rw [he]; rfl)]
    simp [he, Hits, InRange]
  · rw [if_neg (by rw [List.isEmpty_iff, chunks_nil (by decide)]; exact he)]
    have key : (∃ r ∈ chunkRules desc action prio (chunks 5 l).length 0 (chunks 5 l), Hits r p) ↔
        ∃ rs ∈ (chunkRules desc action prio (chunks 5 l).length 0 (chunks 5 l)).map Rule.ranges, ∃ x ∈ rs, InRange p x := by
      constructor
      · rintro ⟨r, h1, h2⟩
        exact ⟨_, List.mem_map.2 ⟨r, h1, rfl⟩, h2⟩
      · rintro ⟨_, h1, h2⟩
        obtain ⟨r, h3, rfl⟩ := List.mem_map.1 h1
        exact ⟨r, h3, h2⟩
    rw [key, chunkRules_ranges]
    unfold Den
    constructor
    · rintro ⟨_, h1, x, h2, h3⟩
      obtain ⟨c, hc, rfl⟩ := List.mem_map.1 h1
      obtain ⟨n, hn, rfl⟩ := List.mem_map.1 h2
      have hl : n ∈ l := by
        rw [← chunks_flatten (n := 5) (by decide) l]
        exact List.mem_flatten.2 ⟨c, hc, hn⟩
      refine .inr ⟨n, hl, (Cisco.mem_iff_div (hw n hl) _ _).2 ?_⟩
      obtain ⟨a, b⟩ := h3
      exact ⟨a.symm, by rw [a]; exact b⟩
    · rintro (h | ⟨n, hn, hm⟩)
      · exact absurd h he
      · have hl := hn
        rw [← chunks_flatten (n := 5) (by decide) l] at hl
        obtain ⟨c, hc, hn'⟩ := List.mem_flatten.1 hl
        refine ⟨_, List.mem_map.2 ⟨c, hc, rfl⟩, _, List.mem_map.2 ⟨n, hn', rfl⟩, ?_⟩
        obtain ⟨a, b⟩ := (Cisco.mem_iff_div (hw n hn) _ _).1 hm
        exact ⟨a.symm, by rw [a]; exact b⟩

/-- The loop appends one block of rules per term, with increasing priorities. -/
theorem termsLoop_blocks {af : String} {verbose : Bool} : ∀ {ts : List CTerm} {acc : List Rule} {counter : Nat} {rs : List Rule},
    termsLoop af verbose acc counter ts = .ok rs →
    ∃ bs : List (CTerm × List Rule), rs = acc ++ bs.flatMap Prod.snd ∧ bs.map Prod.fst = ts ∧
      (∀ b ∈ bs, ∃ prio, convert af verbose prio b.1 = .ok b.2) ∧
      (bs.flatMap Prod.snd).map Rule.priority = List.range' counter (bs.flatMap Prod.snd).length ∧
      (ts = [] ∨ rs.length ≤ 200)
  | [], acc, counter, rs, h => by
    cases h
    exact ⟨[], by simp, rfl, by simp, rfl, .inl rfl⟩
  | t :: ts, acc, counter, rs, h => by
    rw [termsLoop] at h
    obtain ⟨r, h1, h⟩ := bind_ok h
    split at h
    · cases h
    next hlen =>
      obtain ⟨bs, h2, h3, h4, h5, h6⟩ := termsLoop_blocks h
      have hp : r.map Rule.priority = List.range' counter r.length := by
        unfold convert at h1
        obtain ⟨_, _, h1⟩ := bind_ok h1
        obtain ⟨_, _, h1⟩ := bind_ok h1
        obtain ⟨_, _, h1⟩ := bind_ok h1
        cases h1
        exact rulesFor_prio
      refine ⟨(t, r) :: bs, by rw [h2, List.flatMap_cons, List.append_assoc], by rw [List.map_cons, h3], ?_, ?_, .inr ?_⟩
      · intro b hb
        rcases List.mem_cons.1 hb with rfl | hb
        · exact ⟨counter, h1⟩
        · exact h4 b hb
      · rw [List.flatMap_cons, List.map_append, hp, h5, List.length_append]
        exact List.range'_append_1
      · rcases h6 with rfl | h6
        · cases bs with
          | nil =>
            rw [h2]
            simpa using hlen
          | cons => cases h3
        · exact h6

end Verif.CloudArmor
