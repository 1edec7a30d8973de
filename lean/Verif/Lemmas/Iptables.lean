import Verif.Lemmas.Cisco
import Verif.Spec.Iptables

/-!
Lemmas about the iptables model: addresses, ports.
-/

namespace Verif
namespace Iptables
open Policy Aclgenerator Nacaddr Spec Spec.Nf

/-! ### addresses -/

/-- The addresses of a side that are included and not excluded. -/
def Side.Has (s : Side) (v : Ver) (x : Nat) : Prop := Den s.inc v x ∧ ¬ Den s.exc v x

/-- All networks of the side are well-formed. -/
def Side.Good (s : Side) : Prop := ∀ n ∈ s.inc ++ s.exc, WF n

theorem allIps_wf (af : Ver) : WF (allIps af) := by
  refine ⟨Nat.zero_le _, ?_, ?_⟩
  · exact Nat.dvd_zero _
  · simp [allIps]

theorem mem_allIps {af v : Ver} {x : Nat} : Mem (allIps af) v x ↔ v = af ∧ x < 2 ^ af.bits := by
  unfold Mem allIps
  constructor
  · rintro ⟨rfl, _, h⟩; exact ⟨rfl, by simpa using h⟩
  · rintro ⟨rfl, h⟩; exact ⟨rfl, Nat.zero_le _, by simpa using h⟩

theorem den_single {n : Net} {v : Ver} {x : Nat} : Den [n] v x ↔ Mem n v x := by
  unfold Den; simp

theorem orAll_wf {af : Ver} {l : List Net} (h : ∀ n ∈ l, WF n) : ∀ n ∈ orAll af l, WF n := by
  unfold orAll
  split
  · intro n hn
    rw [List.mem_singleton.1 hn]
    exact allIps_wf af
  · exact h

theorem den_orAll {af : Ver} {l : List Net} {v : Ver} {x : Nat} :
    Den (orAll af l) v x ↔ (l = [] ∧ v = af ∧ x < 2 ^ af.bits) ∨ Den l v x := by
  unfold orAll
  split
  next h =>
    rw [den_single, mem_allIps, List.isEmpty_iff.1 h]
    simp [Den]
  next h =>
    have : l ≠ [] := by simpa using h
    simp [this]

theorem excluded_spec {inc exc : List Net} (hi : ∀ n ∈ inc, WF n) (he : ∀ n ∈ exc, WF n) :
    ∃ r, excluded inc exc = .ok r ∧ (∀ n ∈ r, WF n) ∧ (exc = [] → r = []) ∧
      (exc ≠ [] → ∀ v x, Den r v x ↔ Den inc v x ∧ ¬ Den exc v x) := by
  unfold excluded
  split
  next h =>
    have h := List.isEmpty_iff.1 h
    exact ⟨[], rfl, by simp, fun _ => rfl, fun hn => absurd h hn⟩
  next h =>
    obtain ⟨r, h1, h2, _, h4⟩ := addressListExclude_spec inc exc hi he
    exact ⟨r, h1, h2, fun e => absurd (by simp [e]) h, fun _ => h4⟩

theorem chooseSide_spec {b : Bool} {s : Side} {ex : List Net} (hs : s.Good) (hx : ∀ n ∈ ex, WF n)
    (h0 : s.exc = [] → ex = []) (h1 : s.exc ≠ [] → ∀ v x, Den ex v x ↔ Den s.inc v x ∧ ¬ Den s.exc v x)
    (hne : s.exc ≠ [] → ∃ v x, s.Has v x) :
    (chooseSide b s ex).Good ∧ ∀ v x, (chooseSide b s ex).Has v x ↔ s.Has v x := by
  unfold chooseSide
  cases b with
  | false => exact ⟨hs, fun _ _ => Iff.rfl⟩
  | true =>
    rw [if_pos rfl]
    rcases Classical.em (s.exc = []) with he | he
    · rw [h0 he]
      refine ⟨fun n hn => hs n ?_, fun v x => ?_⟩
      · simp at hn; exact List.mem_append_left _ hn
      · unfold Side.Has; rw [he]; simp
    · have hex : ex ≠ [] := by
        obtain ⟨v, x, h⟩ := hne he
        intro e
        have := (h1 he v x).2 h
        rw [e] at this
        obtain ⟨_, hm, _⟩ := this
        cases hm
      have : ex.isEmpty = false := by simpa using hex
      rw [this]
      refine ⟨fun n hn => hx n (by simpa using hn), fun v x => ?_⟩
      unfold Side.Has
      rw [← h1 he]
      simp [Den]

theorem inverted_spec {af : Ver} {s : Side} {r : List Net} (he : s.exc = [])
    (h : ∀ v x, Den r v x ↔ Den [allIps af] v x ∧ ¬ Den s.inc v x) {x : Nat} (hx : x < 2 ^ af.bits) :
    (⟨[allIps af], r⟩ : Side).Has af x ↔ s.Has af x := by
  unfold Side.Has
  rw [h, he, den_single, mem_allIps]
  simp [hx, Den]

theorem invert_spec {af : Ver} {s d : Side} (hs : s.Good) (hd : d.Good) :
    ∃ r, invert af s d = .ok r ∧ r.1.Good ∧ r.2.Good ∧
      (∀ x, x < 2 ^ af.bits → (r.1.Has af x ↔ s.Has af x)) ∧ ∀ x, x < 2 ^ af.bits → (r.2.Has af x ↔ d.Has af x) := by
  have hall : ∀ n ∈ [allIps af], WF n := fun n hn => by rw [List.mem_singleton.1 hn]; exact allIps_wf af
  obtain ⟨ns, e1, w1, _, d1⟩ := addressListExclude_spec [allIps af] s.inc hall fun n hn => hs n (List.mem_append_left _ hn)
  obtain ⟨nd, e2, w2, _, d2⟩ := addressListExclude_spec [allIps af] d.inc hall fun n hn => hd n (List.mem_append_left _ hn)
  have same : ∃ r, (Except.ok (s, d) : Except Err (Side × Side)) = .ok r ∧ r.1.Good ∧ r.2.Good ∧
      (∀ x, x < 2 ^ af.bits → (r.1.Has af x ↔ s.Has af x)) ∧ ∀ x, x < 2 ^ af.bits → (r.2.Has af x ↔ d.Has af x) :=
    ⟨_, rfl, hs, hd, fun _ _ => Iff.rfl, fun _ _ => Iff.rfl⟩
  have good : ∀ {r : List Net}, (∀ n ∈ r, WF n) → (⟨[allIps af], r⟩ : Side).Good := by
    intro r hr n hn
    rcases List.mem_append.1 hn with hn | hn
    · exact hall n hn
    · exact hr n hn
  unfold invert
  split
  · rw [e1, e2]
    show ∃ r, (if ns.length < nd.length ∧ s.exc.isEmpty = true then _ else _) = Except.ok r ∧ _
    split
    next h =>
      split
      · exact ⟨_, rfl, good w1, hd, fun x hx => inverted_spec (List.isEmpty_iff.1 h.2) d1 hx, fun _ _ => Iff.rfl⟩
      · exact same
    next =>
      split
      next h =>
        split
        · exact ⟨_, rfl, hs, good w2, fun _ _ => Iff.rfl, fun x hx => inverted_spec (List.isEmpty_iff.1 h) d2 hx⟩
        · exact same
      next => exact same
  · exact same

theorem only_has {af : Ver} {s : Side} {x : Nat} : (s.only af).Has af x ↔ s.Has af x := by
  have : ∀ l : List Net, Den (l.filter fun n => n.ver == af) af x ↔ Den l af x := by
    intro l
    unfold Den
    constructor
    · rintro ⟨n, hn, hm⟩; exact ⟨n, (List.mem_filter.1 hn).1, hm⟩
    · rintro ⟨n, hn, hm⟩; exact ⟨n, List.mem_filter.2 ⟨hn, by simp [hm.1]⟩, hm⟩
  unfold Side.Has Side.only
  rw [this, this]

/-- `_CalculateAddresses` does not raise; each side has the addresses of the term unless all of them are excluded. -/
theorem calculate_spec {af : Ver} {sa sx da dx : List Net} (hs : ∀ n ∈ sa ++ sx, WF n) (hd : ∀ n ∈ da ++ dx, WF n)
    (ns : sx ≠ [] → ∃ v x, (⟨orAll af sa, sx⟩ : Side).Has v x)
    (nd : dx ≠ [] → ∃ v x, (⟨orAll af da, dx⟩ : Side).Has v x) :
    ∃ r, calculate af sa sx da dx = .ok r ∧ r.1.Good ∧ r.2.Good ∧
      (∀ n ∈ r.1.inc ++ r.1.exc ++ (r.2.inc ++ r.2.exc), n.ver = af) ∧
      (∀ x, x < 2 ^ af.bits → (r.1.Has af x ↔ AddrMatch sa sx af x)) ∧
      ∀ x, x < 2 ^ af.bits → (r.2.Has af x ↔ AddrMatch da dx af x) := by
  have gs : (⟨orAll af sa, sx⟩ : Side).Good := by
    intro n hn
    rcases List.mem_append.1 hn with hn | hn
    · exact orAll_wf (fun n hn => hs n (List.mem_append_left _ hn)) n hn
    · exact hs n (List.mem_append_right _ hn)
  have gd : (⟨orAll af da, dx⟩ : Side).Good := by
    intro n hn
    rcases List.mem_append.1 hn with hn | hn
    · exact orAll_wf (fun n hn => hd n (List.mem_append_left _ hn)) n hn
    · exact hd n (List.mem_append_right _ hn)
  obtain ⟨se, e1, w1, z1, d1⟩ := excluded_spec (inc := orAll af sa) (exc := sx)
    (fun n hn => gs n (List.mem_append_left _ hn)) fun n hn => gs n (List.mem_append_right _ hn)
  obtain ⟨de, e2, w2, z2, d2⟩ := excluded_spec (inc := orAll af da) (exc := dx)
    (fun n hn => gd n (List.mem_append_left _ hn)) fun n hn => gd n (List.mem_append_right _ hn)
  unfold calculate
  rw [e1, e2]
  generalize hb : decide (orOne se.length * orOne de.length <
    sx.length + dx.length + orOne sa.length * orOne da.length) = b
  obtain ⟨g1, c1⟩ := chooseSide_spec (b := b) gs w1 z1 d1 ns
  obtain ⟨g2, c2⟩ := chooseSide_spec (b := b) gd w2 z2 d2 nd
  obtain ⟨r, e3, g3, g4, i1, i2⟩ := invert_spec (af := af) g1 g2
  have addr : ∀ (l m : List Net) (x : Nat), x < 2 ^ af.bits → ((⟨orAll af l, m⟩ : Side).Has af x ↔ AddrMatch l m af x) := by
    intro l m x hx
    unfold Side.Has AddrMatch
    rw [den_orAll]
    simp [hx]
  refine ⟨(r.1.only af, r.2.only af), ?_, ?_, ?_, ?_, fun x hx => ?_, fun x hx => ?_⟩
  · show (do
      let r ← invert af (chooseSide (decide _) _ se) (chooseSide (decide _) _ de)
      Except.ok (r.1.only af, r.2.only af)) = _
    rw [hb, e3]; rfl
  · intro n hn
    unfold Side.only at hn
    rcases List.mem_append.1 hn with hn | hn
    · exact g3 n (List.mem_append_left _ (List.mem_filter.1 hn).1)
    · exact g3 n (List.mem_append_right _ (List.mem_filter.1 hn).1)
  · intro n hn
    unfold Side.only at hn
    rcases List.mem_append.1 hn with hn | hn
    · exact g4 n (List.mem_append_left _ (List.mem_filter.1 hn).1)
    · exact g4 n (List.mem_append_right _ (List.mem_filter.1 hn).1)
  · intro n hn
    unfold Side.only at hn
    simp only [List.mem_append, List.mem_filter, beq_iff_eq] at hn
    rcases hn with (h | h) | h | h <;> exact h.2
  · rw [only_has, i1 x hx, c1, addr _ _ x hx]
  · rw [only_has, i2 x hx, c2, addr _ _ x hx]

/-! ### ports -/

theorem portCount_append (a b : List PortRange) : portCount (a ++ b) = portCount a + portCount b := by
  simp [portCount, List.map_append, List.sum_append]

theorem portCount_pos {l : List PortRange} : portCount l = 0 → l = [] := by
  cases l with
  | nil => intro; rfl
  | cons a l =>
    intro h
    simp only [portCount, List.map_cons, List.sum_cons] at h
    split at h <;> omega

/-- What the loop maintains: the statements so far are multiport and within the limit, the pending ports are counted. -/
structure PortInv (done : List PortRange) (st : List PortRange × List PortStmt × Nat) : Prop where
  all : st.2.1.flatMap Prod.snd ++ st.1 = done
  multi : ∀ s ∈ st.2.1, s.1 = true ∧ portCount s.2 ≤ 15
  count : st.2.2 = portCount st.1
  small : st.2.2 < 14

theorem portStep_inv {done : List PortRange} {st : List PortRange × List PortStmt × Nat} (h : PortInv done st)
    (p : PortRange) : PortInv (done ++ [p]) (portStep st p) := by
  obtain ⟨h1, h2, h3, h4⟩ := h
  have hc : portCount (st.1 ++ [p]) = st.2.2 + (if p.1 = p.2 then 1 else 2) := by
    rw [portCount_append, h3]; simp [portCount]
  have hle : (if p.1 = p.2 then 1 else 2) ≤ 2 := by split <;> omega
  unfold portStep
  dsimp only
  generalize (if p.1 = p.2 then 1 else 2) = k at hc hle ⊢
  split
  · refine ⟨?_, ?_, rfl, by simp⟩
    · rw [← h1]; simp
    · intro s hs
      rcases List.mem_append.1 hs with hs | hs
      · exact h2 s hs
      · rw [List.mem_singleton.1 hs]
        refine ⟨rfl, ?_⟩
        show portCount (st.1 ++ [p]) ≤ 15
        rw [hc]
        omega
  next hlt =>
    refine ⟨?_, h2, hc.symm, by simpa using hlt⟩
    rw [← h1]; simp

theorem portLoop_inv (ps : List PortRange) : ∀ {done : List PortRange} {st : List PortRange × List PortStmt × Nat},
    PortInv done st → PortInv (done ++ ps) (ps.foldl portStep st) := by
  induction ps with
  | nil => intro done st h; simpa using h
  | cons p ps ih =>
    intro done st h
    have := ih (portStep_inv h p)
    simpa using this

/-- The port statements: all but the last are multiport; together they hold the ports in order. -/
theorem portStatements_spec (ps : List PortRange) :
    (portStatements ps).flatMap Prod.snd = ps ∧
    (∀ s ∈ portStatements ps, portCount s.2 ≤ 15 ∧ s.2 ≠ [] ∧ (s.1 = false → ∃ r, s.2 = [r])) ∧
    ∃ a b, portStatements ps = a ++ b ∧ (∀ s ∈ a, s.1 = true) ∧ b.length ≤ 1 := by
  have h := portLoop_inv ps (done := []) (st := ([], [], 0)) ⟨rfl, by simp, rfl, by simp⟩
  have hne : ∀ (ps : List PortRange) (st : List PortRange × List PortStmt × Nat), (∀ s ∈ st.2.1, s.2 ≠ []) →
      ∀ s ∈ (ps.foldl portStep st).2.1, s.2 ≠ [] := by
    intro ps
    induction ps with
    | nil => intro st h; exact h
    | cons p ps ih =>
      intro st h
      refine ih _ ?_
      unfold portStep
      dsimp only
      generalize (if p.1 = p.2 then 1 else 2) = k
      split
      · intro s hs
        rcases List.mem_append.1 hs with hs | hs
        · exact h s hs
        · rw [List.mem_singleton.1 hs]; simp
      · exact h
  have hne := hne ps ([], [], 0) (by simp)
  obtain ⟨h1, h2, h3, h4⟩ := h
  unfold portStatements
  dsimp only
  generalize ps.foldl portStep ([], [], 0) = r at *
  split
  next he =>
    have he := List.isEmpty_iff.1 he
    rw [he] at h1
    refine ⟨by simpa using h1, fun s hs => ⟨(h2 s hs).2, hne s hs, ?_⟩, r.2.1, [], by simp, fun s hs => (h2 s hs).1, by simp⟩
    intro e; rw [(h2 s hs).1] at e; cases e
  next he =>
    have he : r.1 ≠ [] := by simpa using he
    refine ⟨by simpa using h1, ?_, r.2.1, _, rfl, fun s hs => (h2 s hs).1, by simp⟩
    intro s hs
    rcases List.mem_append.1 hs with hs | hs
    · exact ⟨(h2 s hs).2, hne s hs, fun e => by rw [(h2 s hs).1] at e; cases e⟩
    · rw [List.mem_singleton.1 hs]
      refine ⟨by show portCount r.1 ≤ 15; omega, he, fun e => ?_⟩
      have : r.1.length = 1 := by simpa using e
      exact List.length_eq_one_iff.1 this

end Iptables
end Verif
