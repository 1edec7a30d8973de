import Verif.Model.Err

/-!
Recursion with a depth bound: when the bound suffices.
-/

namespace Verif
namespace Fix

variable {κ κ' β : Type}

/-- `n` nested calls of the functional `F`. -/
def iter (F : (κ → Except Err β) → κ → Except Err β) : Nat → κ → Except Err β
  | 0, _ => .error .diverges
  | n + 1, k => F (iter F n) k

/-- The functional only looks at recursive calls on arguments in `P`, and calls that terminate
determine a terminating result. -/
def Mono (P : κ → Prop) (F : (κ → Except Err β) → κ → Except Err β) : Prop :=
  ∀ r r' k, F r k ≠ .error .diverges → (∀ c, P c → r c ≠ .error .diverges → r' c = r c) → F r' k = F r k

variable {P : κ → Prop} {F : (κ → Except Err β) → κ → Except Err β}

theorem iter_succ (hm : Mono P F) : ∀ n k, iter F n k ≠ .error .diverges → iter F (n + 1) k = iter F n k := by
  intro n
  induction n with
  | zero => intro k h; exact absurd rfl h
  | succ n ih =>
    intro k h
    exact hm (iter F n) (iter F (n + 1)) k h (fun c _ hc => ih c hc)

theorem iter_le (hm : Mono P F) {n m k} (hnm : n ≤ m) (h : iter F n k ≠ .error .diverges) :
    iter F m k = iter F n k := by
  induction m with
  | zero => have : n = 0 := by omega
            subst this; rfl
  | succ m ih =>
    rcases Nat.lt_or_ge n (m + 1) with hlt | hge
    · have := ih (by omega)
      rw [← this]
      exact iter_succ hm m k (by rw [this]; exact h)
    · have : n = m + 1 := by omega
      rw [this]

/-- `k` needs exactly depth `n + 1`. -/
def Lev (F : (κ → Except Err β) → κ → Except Err β) (n : Nat) (k : κ) : Prop :=
  iter F (n + 1) k ≠ .error .diverges ∧ iter F n k = .error .diverges

theorem lev_child (hm : Mono P F) {n k} (h : Lev F (n + 1) k) : ∃ c, P c ∧ Lev F n c := by
  apply Classical.byContradiction
  intro hno
  apply h.1
  show F (iter F (n + 1)) k = _
  have := hm (iter F (n + 1)) (iter F n) k h.1 (fun c hc hcc => by
    rcases Classical.em (iter F n c = .error .diverges) with hd | hd
    · exact absurd ⟨c, hc, hcc, hd⟩ hno
    · exact (iter_succ hm n c hd).symm)
  rw [← this]
  exact h.2

theorem lev_chain (hm : Mono P F) : ∀ n k, P k → Lev F n k → ∀ i, i ≤ n → ∃ c, P c ∧ Lev F i c := by
  intro n
  induction n with
  | zero => intro k hk h i hi
            have : i = 0 := by omega
            subst this; exact ⟨k, hk, h⟩
  | succ n ih =>
    intro k hk h i hi
    rcases Nat.lt_or_ge i (n + 1) with hlt | hge
    · obtain ⟨c, hc, hl⟩ := lev_child hm h
      exact ih c hc hl i (by omega)
    · have : i = n + 1 := by omega
      subst this; exact ⟨k, hk, h⟩

theorem lev_unique (hm : Mono P F) {n m k} (h1 : Lev F n k) (h2 : Lev F m k) : n = m := by
  rcases Nat.lt_trichotomy n m with h | h | h
  · exfalso
    have := iter_le hm (m := m) (by omega) h1.1
    rw [h2.2] at this
    exact h1.1 this.symm
  · exact h
  · exfalso
    have := iter_le hm (m := n) (by omega) h2.1
    rw [h1.2] at this
    exact h2.1 this.symm

theorem exists_lev {m k} (h : iter F m k ≠ .error .diverges) : ∃ n, n < m ∧ Lev F n k := by
  induction m with
  | zero => exact absurd rfl h
  | succ m ih =>
    rcases Classical.em (iter F m k = .error .diverges) with hd | hd
    · exact ⟨m, by omega, h, hd⟩
    · obtain ⟨n, hn, hl⟩ := ih hd
      exact ⟨n, by omega, hl⟩

/-- Pigeonhole for functions on `Nat`. -/
theorem pigeon {α : Type} : ∀ (n : Nat) (l : List α) (g : Nat → α),
    (∀ i, i < n → g i ∈ l) → (∀ i j, i < n → j < n → g i = g j → i = j) → n ≤ l.length := by
  intro n l g hg hi
  have hnd : ((List.range n).map g).Nodup := by
    rw [List.Nodup, List.pairwise_map]
    refine List.Pairwise.imp_of_mem (fun {a b} ha hb hab e => ?_) (List.nodup_range (n := n))
    exact hab (hi a b (List.mem_range.1 ha) (List.mem_range.1 hb) e)
  have hsub : ∀ x ∈ (List.range n).map g, x ∈ l := by
    intro x hx
    obtain ⟨i, hi, rfl⟩ := List.mem_map.1 hx
    exact hg i (List.mem_range.1 hi)
  have : ((List.range n).map g).length ≤ l.length := by
    clear hg hi
    generalize (List.range n).map g = a at *
    induction a generalizing l with
    | nil => simp
    | cons x xs ih =>
      have hx : x ∈ l := hsub x (by simp)
      obtain ⟨s, t, rfl⟩ := List.append_of_mem hx
      rw [List.nodup_cons] at hnd
      have := ih (s ++ t) hnd.2 (fun y hy => by
        have := hsub y (by simp [hy])
        simp only [List.mem_append, List.mem_cons] at this ⊢
        rcases this with h | h | h
        · exact .inl h
        · subst h; exact absurd hy hnd.1
        · exact .inr h)
      simp only [List.length_cons, List.length_append] at *
      omega
  simpa using this

theorem lev_bound (hm : Mono P F) (key : κ → κ') (keys : List κ')
    (hk : ∀ r k, P k → F r k = .error .diverges → key k ∈ keys)
    (he : ∀ r k k', key k = key k' → F r k = F r k')
    {n k} (hP : P k) (h : Lev F n k) : n ≤ keys.length := by
  have hiter : ∀ m a b, key a = key b → iter F m a = iter F m b := by
    intro m a b hab
    cases m with
    | zero => rfl
    | succ m => exact he _ _ _ hab
  have hch := lev_chain hm n k hP h
  have hex : ∀ i, ∃ c, i < n → P c ∧ Lev F (i + 1) c := by
    intro i
    rcases Nat.lt_or_ge i n with hi | hi
    · obtain ⟨c, hc⟩ := hch (i + 1) (by omega)
      exact ⟨c, fun _ => hc⟩
    · exact ⟨k, fun h => by omega⟩
  obtain ⟨g, hg⟩ := Classical.axiomOfChoice hex
  refine pigeon n keys (fun i => key (g i)) ?_ ?_
  · intro i hi
    exact hk _ _ (hg i hi).1 (hg i hi).2.2
  · intro i j hi hj hij
    have h1 := (hg i hi).2
    have h2 := (hg j hj).2
    have : Lev F (i + 1) (g j) := by
      unfold Lev
      rw [← hiter _ _ _ hij, ← hiter _ _ _ hij]
      exact h1
    have := lev_unique hm this h2
    omega

/-- Depth `keys.length + 1` is enough whenever any depth is. -/
theorem iter_enough (hm : Mono P F) (key : κ → κ') (keys : List κ')
    (hk : ∀ r k, P k → F r k = .error .diverges → key k ∈ keys)
    (he : ∀ r k k', key k = key k' → F r k = F r k')
    {m k} (hP : P k) (h : iter F m k ≠ .error .diverges) : iter F (keys.length + 1) k = iter F m k := by
  obtain ⟨n, hn, hl⟩ := exists_lev h
  have hb := lev_bound hm key keys hk he hP hl
  have h1 := iter_le hm (n := n + 1) (m := keys.length + 1) (by omega) hl.1
  have h2 := iter_le hm (n := n + 1) (m := m) (by omega) hl.1
  rw [h1, h2]

/-- One more for an argument outside `P`. -/
theorem iter_enough' (hm : Mono P F) (key : κ → κ') (keys : List κ')
    (hk : ∀ r k, P k → F r k = .error .diverges → key k ∈ keys)
    (he : ∀ r k k', key k = key k' → F r k = F r k')
    {m k} (h : iter F m k ≠ .error .diverges) : iter F (keys.length + 2) k = iter F m k := by
  obtain ⟨n, hn, hl⟩ := exists_lev h
  have hb : n ≤ keys.length + 1 := by
    cases n with
    | zero => omega
    | succ n =>
      obtain ⟨c, hc, hcl⟩ := lev_child hm hl
      have := lev_bound hm key keys hk he hc hcl
      omega
  have h1 := iter_le hm (n := n + 1) (m := keys.length + 2) (by omega) hl.1
  have h2 := iter_le hm (n := n + 1) (m := m) (by omega) hl.1
  rw [h1, h2]

end Fix
end Verif
