import Verif.Spec.IpsetConfig
import Verif.Lemmas.Translate

/-!
C178: loading the sets of an `ipset` policy.
-/

namespace Verif.Props
open Verif Verif.Policy Verif.Ipset
open Verif.Iptables (IpSet Filter ITerm)
open Verif.Spec.IpsetHost (KSet Sets put run restore)

namespace IpsetConfigL

/-- The networks as the kernel has them. -/
def keys (l : List Net) : List (Nat × Nat) := l.map fun n => (n.addr, n.plen)

theorem restore_append (h : Sets) (a b : List SetCmd) : restore h (a ++ b) = (restore h a).bind fun h' => restore h' b := by
  induction a generalizing h with
  | nil => rfl
  | cons c a ih =>
    rw [List.cons_append, restore, restore]
    cases run h c with
    | none => rfl
    | some h' => exact ih h'

theorem put_self (h : Sets) (n : Str) (s : KSet) : put h n s n = some s := by simp [put]

theorem put_ne {h : Sets} {n m : Str} {s : KSet} (hm : m ≠ n) : put h n s m = h m := by simp [put, hm]

theorem put_put (h : Sets) (n : Str) (s t : KSet) : put (put h n s) n t = put h n t := by
  funext m
  by_cases hm : m = n <;> simp [put, hm]

theorem put_same {h : Sets} {n : Str} {s : KSet} (hs : h n = some s) : put h n s = h := by
  funext m
  by_cases hm : m = n
  · subst hm; rw [put_self, hs]
  · exact put_ne hm

theorem room (n : Nat) : n < 2 ^ bitLength n := by
  unfold bitLength
  split
  next h => subst h; decide
  next h => exact Nat.lt_log2_self

/-- Adding new networks. -/
theorem adds_new {e : Bool} {name : Str} {af : Ver} {max : Nat} : ∀ {l : List Net} {h : Sets} {old : List (Nat × Nat)},
    h name = some ⟨af, max, old⟩ → (∀ n ∈ l, n.ver = af ∧ n.plen ≠ 0) → (old ++ keys l).Nodup → (old ++ keys l).length ≤ max →
    restore h (l.map fun n => .add e name n) = some (put h name ⟨af, max, old ++ keys l⟩)
  | [], h, old, hs, _, _, _ => by
    rw [List.map_nil, restore]
    simp only [keys, List.map_nil, List.append_nil]
    rw [put_same hs]
  | n :: l, h, old, hs, hn, hd, hl => by
    rw [List.map_cons, restore]
    have hk : keys (n :: l) = (n.addr, n.plen) :: keys l := rfl
    have hnew : (n.addr, n.plen) ∉ old := by
      intro hm
      rw [hk] at hd
      exact (List.nodup_append.1 hd).2.2 _ hm _ (by simp) rfl
    have hr : run h (.add e name n) = some (put h name ⟨af, max, old ++ [(n.addr, n.plen)]⟩) := by
      simp only [run, hs]
      rw [if_neg (by have := hn n (by simp); simp [this.1, this.2]), if_neg hnew, if_neg]
      rw [hk] at hl
      simp at hl
      simp
      omega
    rw [hr]
    have := adds_new (e := e) (l := l) (h := put h name ⟨af, max, old ++ [(n.addr, n.plen)]⟩) (old := old ++ [(n.addr, n.plen)])
      (put_self _ _ _) (fun m hm => hn m (by simp [hm])) (by simpa [hk] using hd) (by simpa [hk] using hl)
    simp only
    rw [this, put_put, hk]
    simp

/-- Adding networks that are there. -/
theorem adds_old {name : Str} {s : KSet} : ∀ {l : List Net} {h : Sets}, h name = some s →
    (∀ n ∈ l, n.ver = s.af ∧ n.plen ≠ 0 ∧ (n.addr, n.plen) ∈ s.nets) → restore h (l.map fun n => .add true name n) = some h
  | [], _, _, _ => rfl
  | n :: l, h, hs, hn => by
    rw [List.map_cons, restore]
    have hr : run h (.add true name n) = some h := by
      simp only [run, hs]
      have := hn n (by simp)
      rw [if_neg (by simp [this.1, this.2.1]), if_pos this.2.2]
      rfl
    rw [hr]
    exact adds_old hs fun m hm => hn m (by simp [hm])

theorem length_keys (l : List Net) : (keys l).length = l.length := by simp [keys]

/-- One set on a host without it. -/
theorem set_new {e : Bool} {af : Ver} {s : IpSet} {h : Sets} (hs : h s.1 = none) (hn : ∀ n ∈ s.2, n.ver = af ∧ n.plen ≠ 0)
    (hd : (keys s.2).Nodup) :
    restore h (setCommands e af s) = some (put h s.1 ⟨af, 2 ^ bitLength s.2.length, keys s.2⟩) := by
  unfold setCommands
  rw [restore]
  simp only [run, hs]
  rw [adds_new (old := []) (put_self _ _ _) hn (by simpa using hd) (by
    rw [List.nil_append, length_keys]
    exact Nat.le_of_lt (room _)), put_put]
  rfl

theorem sets_new {e : Bool} : ∀ {ss : List (Ver × IpSet)} {h : Sets}, (ss.map fun x => x.2.1).Nodup → (∀ x ∈ ss, h x.2.1 = none) →
    (∀ x ∈ ss, (∀ n ∈ x.2.2, n.ver = x.1 ∧ n.plen ≠ 0) ∧ (keys x.2.2).Nodup) →
    ∃ h', restore h (ss.flatMap fun x => setCommands e x.1 x.2) = some h' ∧
      (∀ x ∈ ss, h' x.2.1 = some ⟨x.1, 2 ^ bitLength x.2.2.length, keys x.2.2⟩) ∧
      ∀ n, n ∉ (ss.map fun x => x.2.1) → h' n = h n
  | [], h, _, _, _ => ⟨h, rfl, nofun, fun _ _ => rfl⟩
  | x :: ss, h, hd, hf, hg => by
    rw [List.flatMap_cons, restore_append, set_new (hf x (by simp)) (hg x (by simp)).1 (hg x (by simp)).2]
    rw [List.map_cons, List.nodup_cons] at hd
    have hne : ∀ y ∈ ss, y.2.1 ≠ x.2.1 := fun y hy e => hd.1 (List.mem_map.2 ⟨y, hy, e⟩)
    obtain ⟨h', h1, h2, h3⟩ := sets_new (e := e) (ss := ss) (h := put h x.2.1 ⟨x.1, 2 ^ bitLength x.2.2.length, keys x.2.2⟩) hd.2
      (fun y hy => by rw [put_ne (hne y hy)]; exact hf y (by simp [hy])) (fun y hy => hg y (by simp [hy]))
    refine ⟨h', h1, fun y hy => ?_, fun n hn => ?_⟩
    · rcases List.mem_cons.1 hy with rfl | hy
      · rw [h3 _ hd.1, put_self]
      · exact h2 y hy
    · rw [List.map_cons, List.mem_cons, not_or] at hn
      rw [h3 n hn.2, put_ne hn.1]

theorem sets_again : ∀ {ss : List (Ver × IpSet)} {h : Sets},
    (∀ x ∈ ss, (∀ n ∈ x.2.2, n.ver = x.1 ∧ n.plen ≠ 0) ∧ h x.2.1 = some ⟨x.1, 2 ^ bitLength x.2.2.length, keys x.2.2⟩) →
    restore h (ss.flatMap fun x => setCommands true x.1 x.2) = some h
  | [], _, _ => rfl
  | x :: ss, h, hg => by
    rw [List.flatMap_cons, restore_append]
    obtain ⟨h1, h2⟩ := hg x (by simp)
    have : restore h (setCommands true x.1 x.2) = some h := by
      unfold setCommands
      rw [restore]
      simp only [run, h2]
      rw [if_pos (by simp)]
      exact adds_old h2 fun n hn => ⟨(h1 n hn).1, (h1 n hn).2, List.mem_map.2 ⟨n, hn, rfl⟩⟩
    rw [this]
    exact sets_again fun y hy => hg y (by simp [hy])

theorem sets_of : ∀ {os : List Iptables.Out} {rs}, listM (Iptables.printFilter Iptables.ipset) os = .ok rs →
    ∃ ss, concatM filterSets os = .ok ss ∧ ss.map Prod.snd = rs.flatMap Prod.snd
  | [], _, h2 => by cases h2; exact ⟨[], rfl, rfl⟩
  | o :: os, rs, h2 => by
    rw [listM] at h2
    obtain ⟨x, e1, h2⟩ := bind_ok h2
    obtain ⟨y, e2, h2⟩ := bind_ok h2
    cases h2
    obtain ⟨ss, e3, e4⟩ := sets_of e2
    unfold Iptables.printFilter at e1
    obtain ⟨ps, e5, e1⟩ := bind_ok e1
    cases e1
    refine ⟨_, by rw [concatM, filterSets, e5, e3]; rfl, ?_⟩
    rw [List.map_append, e4, List.flatMap_cons]
    congr 1
    simp [List.map_flatMap, Function.comp_def]

theorem sets_render {fs : List Filter} {ls : List Iptables.Line} {sets : List IpSet}
    (h : Iptables.render Iptables.ipset fs = .ok (ls, sets)) : ∃ ss, allSets fs = .ok ss ∧ ss.map Prod.snd = sets := by
  unfold Iptables.render at h
  obtain ⟨os, h1, h⟩ := bind_ok h
  obtain ⟨rs, h2, h⟩ := bind_ok h
  cases h
  unfold allSets
  rw [h1]
  exact sets_of h2

end IpsetConfigL
open IpsetConfigL

/-- **C178**, a new host: on a host that has no set of one of the names, `ipset restore` takes all commands, every set of the policy has
exactly its networks in the order printed (each fits, since the limit of a set is above their number and its family is theirs), and the other sets are as before.
By C48 the networks of a set are of the family of the filter and are the addresses of the term. Missing: names that two terms share, see
`C48_refuted_names`, and hosts with such sets, see the refutations. -/
theorem C178_new_partial {fs : List Filter} {ls : List Iptables.Line} {sets : List IpSet} {ss : List (Ver × IpSet)} {cmds : List SetCmd}
    (hr : Iptables.render Iptables.ipset fs = .ok (ls, sets)) (hs : allSets fs = .ok ss) (hc : setConfig fs = .ok cmds)
    (hd : (sets.map Prod.fst).Nodup) (hv : ∀ x ∈ ss, ∀ n ∈ x.2.2, n.ver = x.1)
    (hn : ∀ s ∈ sets, (∀ n ∈ s.2, n.plen ≠ 0) ∧ (s.2.map fun n => (n.addr, n.plen)).Nodup)
    {h : Sets} (hf : ∀ s ∈ sets, h s.1 = none) :
    ∃ h', restore h cmds = some h' ∧
      (∀ s ∈ sets, ∃ k, h' s.1 = some k ∧ k.nets = s.2.map (fun n => (n.addr, n.plen)) ∧ s.2.length < k.maxelem ∧
        ∀ n ∈ s.2, n.ver = k.af) ∧
      ∀ n, n ∉ sets.map Prod.fst → h' n = h n := by
  obtain ⟨ss', e1, e2⟩ := sets_render hr
  rw [hs] at e1
  cases e1
  unfold setConfig at hc
  rw [hs] at hc
  cases hc
  subst e2
  obtain ⟨h', h1, h2, h3⟩ := sets_new (e := (fs.getLast?.map fun f => f.options.contains "exists").getD false) (ss := ss) (h := h)
    (by simpa [List.map_map, Function.comp_def] using hd)
    (fun x hx => hf x.2 (List.mem_map.2 ⟨x, hx, rfl⟩))
    (fun x hx => ⟨fun n hm => ⟨hv x hx n hm, (hn x.2 (List.mem_map.2 ⟨x, hx, rfl⟩)).1 n hm⟩, (hn x.2 (List.mem_map.2 ⟨x, hx, rfl⟩)).2⟩)
  refine ⟨h', h1, fun s hs' => ?_, fun n hm => h3 n (by simpa [List.map_map, Function.comp_def] using hm)⟩
  obtain ⟨x, hx, rfl⟩ := List.mem_map.1 hs'
  exact ⟨_, h2 x hx, rfl, room _, hv x hx⟩

/-- **C178**, loading again: if the last filter has the option `exists`, the commands can be given again, and change nothing. -/
theorem C178_again_partial {fs : List Filter} {f : Filter} {ls : List Iptables.Line} {sets : List IpSet} {ss : List (Ver × IpSet)}
    {cmds : List SetCmd}
    (hr : Iptables.render Iptables.ipset (fs ++ [f]) = .ok (ls, sets)) (hs : allSets (fs ++ [f]) = .ok ss)
    (hc : setConfig (fs ++ [f]) = .ok cmds) (he : "exists" ∈ f.options)
    (hd : (sets.map Prod.fst).Nodup) (hv : ∀ x ∈ ss, ∀ n ∈ x.2.2, n.ver = x.1)
    (hn : ∀ s ∈ sets, (∀ n ∈ s.2, n.plen ≠ 0) ∧ (s.2.map fun n => (n.addr, n.plen)).Nodup)
    {h h' : Sets} (hf : ∀ s ∈ sets, h s.1 = none) (h1 : restore h cmds = some h') : restore h' cmds = some h' := by
  obtain ⟨ss', e1, e2⟩ := sets_render hr
  rw [hs] at e1
  cases e1
  have hx : ((fs ++ [f]).getLast?.map fun f => f.options.contains "exists").getD false = true := by simp [he]
  unfold setConfig at hc
  rw [hs] at hc
  cases hc
  subst e2
  simp only [hx] at h1 ⊢
  obtain ⟨h'', e3, e4, _⟩ := sets_new (e := true) (ss := ss) (h := h)
    (by simpa [List.map_map, Function.comp_def] using hd)
    (fun x hx => hf x.2 (List.mem_map.2 ⟨x, hx, rfl⟩))
    (fun x hx => ⟨fun n hm => ⟨hv x hx n hm, (hn x.2 (List.mem_map.2 ⟨x, hx, rfl⟩)).1 n hm⟩, (hn x.2 (List.mem_map.2 ⟨x, hx, rfl⟩)).2⟩)
  rw [e3] at h1
  cases h1
  exact sets_again fun x hx => ⟨fun n hm => ⟨hv x hx n hm, (hn x.2 (List.mem_map.2 ⟨x, hx, rfl⟩)).1 n hm⟩, e4 x hx⟩

/-- A filter with one term from some networks. -/
def setFilter (name : String) (options : List String) (nets : List Net) : Filter :=
  ⟨name.toList, options, [{ term := { name := "t".toList, action := ["accept"], sourceAddress := nets } }]⟩

/-- A network. -/
def tenNet (a : Nat) : Net := { ver := .v4, addr := a * 2 ^ 24, plen := 8 }

/-- The hypotheses of the two theorems. -/
example : ∃ ls sets ss cmds, Iptables.render Iptables.ipset [setFilter "INPUT" ["exists"] [tenNet 10, tenNet 11]] = .ok (ls, sets) ∧
    allSets [setFilter "INPUT" ["exists"] [tenNet 10, tenNet 11]] = .ok ss ∧
    setConfig [setFilter "INPUT" ["exists"] [tenNet 10, tenNet 11]] = .ok cmds ∧ sets.length = 1 ∧
    (sets.map Prod.fst).Nodup ∧ (∀ x ∈ ss, ∀ n ∈ x.2.2, n.ver = x.1) ∧
    (∀ s ∈ sets, (∀ n ∈ s.2, n.plen ≠ 0) ∧ (s.2.map fun n => (n.addr, n.plen)).Nodup) ∧
    cmds = [.create true "t-src".toList .v4 4 4, .add true "t-src".toList (tenNet 10), .add true "t-src".toList (tenNet 11)] :=
  ⟨_, _, _, _, rfl, rfl, rfl, by decide +kernel, by decide +kernel, by decide +kernel, by decide +kernel, by decide +kernel⟩

/-- **C178** is false without the option `exists`: on a host that has a set of that name the first command for it fails. -/
theorem C178_refuted_present (nets : List Net) (af : Ver) (name : Str) (h : Sets) (s : KSet) (hs : h name = some s) :
    restore h (setCommands false af (name, nets)) = none := by
  unfold setCommands
  rw [restore]
  simp [run, hs]

example : ∃ cmds, setConfig [setFilter "INPUT" [] [tenNet 10, tenNet 11]] = .ok cmds ∧
    cmds = setCommands false .v4 ("t-src".toList, [tenNet 10, tenNet 11]) := ⟨_, rfl, by decide +kernel⟩

/-- **C178** is false with the option `exists`: a network that the policy no longer has stays in the set, so that the rules still match it. -/
theorem C178_refuted_stale : ∃ old new h, setConfig [setFilter "INPUT" ["exists"] [tenNet 10, tenNet 11]] = .ok old ∧
    setConfig [setFilter "INPUT" ["exists"] [tenNet 10, tenNet 12]] = .ok new ∧ restore (fun _ => none) (old ++ new) = some h ∧
    h "t-src".toList = some ⟨.v4, 4, [(10 * 2 ^ 24, 8), (11 * 2 ^ 24, 8), (12 * 2 ^ 24, 8)]⟩ :=
  ⟨_, _, _, rfl, rfl, rfl, by decide +kernel⟩

/-- **C178** is false when a set grows: with more networks the limit differs, and the command for the set fails in spite of `exists`. -/
theorem C178_refuted_grown : ∃ old new, setConfig [setFilter "INPUT" ["exists"] [tenNet 10, tenNet 11, tenNet 12]] = .ok old ∧
    setConfig [setFilter "INPUT" ["exists"] [tenNet 10, tenNet 11, tenNet 12, tenNet 13]] = .ok new ∧
    (restore (fun _ => none) old).isSome = true ∧ (restore (fun _ => none) (old ++ new)).isSome = false :=
  ⟨_, _, rfl, rfl, by decide +kernel, by decide +kernel⟩

/-- **C178** is false for the option `exists` of a filter that is not the last: it has no effect. -/
theorem C178_refuted_option : ∃ cmds, setConfig [setFilter "INPUT" ["exists"] [tenNet 10, tenNet 11], setFilter "OUTPUT" [] []] = .ok cmds ∧
    (restore (fun _ => none) cmds).isSome = true ∧ (restore (fun _ => none) (cmds ++ cmds)).isSome = false :=
  ⟨_, rfl, by decide +kernel, by decide +kernel⟩

end Verif.Props
