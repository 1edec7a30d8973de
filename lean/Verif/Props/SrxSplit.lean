import Verif.Props.SrxOutput

/-!
C100: terms with many addresses are split.
-/

namespace Verif.Props
open Verif Verif.Spec Policy Aclgenerator Nacaddr Verif.Srx Verif.Spec.Srx

/-- Size of a network: what the limit of the firewall counts. -/
def sizeOfNet (n : Net) : Nat := if n.ver = .v6 then 4 else 1

theorem chunkLoop_flatten : ∀ (l : List Net) (c : Nat) (cur : List Net), (chunkLoop c cur l).flatten = cur ++ l
  | [], c, cur => by simp [chunkLoop]
  | n :: l, c, cur => by
    rw [chunkLoop]
    split
    · rw [List.flatten_cons, chunkLoop_flatten l]; rfl
    · rw [chunkLoop_flatten l]; simp

theorem chunkLoop_ok : ∀ (l : List Net) (c : Nat) (cur : List Net), (cur.map sizeOfNet).sum = c → c ≤ 515 →
    ∀ k ∈ chunkLoop c cur l, (k.map sizeOfNet).sum ≤ 515 ∧ (cur ≠ [] ∨ l ≠ [] → k ≠ [])
  | [], c, cur, hc, hb, k, hk => by
    rw [chunkLoop, List.mem_singleton] at hk
    subst hk
    exact ⟨by omega, fun h => h.elim id fun h => absurd rfl h⟩
  | n :: l, c, cur, hc, hb, k, hk => by
    have hw : sizeOfNet n ≤ 4 := by unfold sizeOfNet; split <;> omega
    rw [chunkLoop] at hk
    split at hk
    next hbig =>
      rcases List.mem_cons.1 hk with rfl | hk
      · refine ⟨by omega, fun _ h0 => ?_⟩
        rw [h0] at hc
        simp at hc
        omega
      · have := chunkLoop_ok l (weight n) [n] (by simp [sizeOfNet, weight]) (by show sizeOfNet n ≤ 515; omega) k hk
        exact ⟨this.1, fun _ => this.2 (.inl (by simp))⟩
    next hsmall =>
      have := chunkLoop_ok l (c + weight n) (cur ++ [n]) (by rw [List.map_append, List.sum_append, hc]; simp [sizeOfNet, weight])
        (by show c + sizeOfNet n ≤ 515; omega) k hk
      exact ⟨this.1, fun _ => this.2 (.inl (by simp))⟩

theorem mem_reparent {n : Net} {s : String} {v : Ver} {x : Nat} : Mem { n with parent := s } v x ↔ Mem n v x := Iff.rfl

/-- The chunks of a list have its addresses, and each has some if the list has. -/
theorem chunks_match {side : String} {name : Str} {l exc : List Net} {v : Ver} {x : Nat} :
    (∃ k ∈ chunks side name l, AddrMatch k exc v x) ↔ AddrMatch l exc v x := by
  have ok := chunkLoop_ok l 0 [] rfl (by omega)
  have fl := chunkLoop_flatten l 0 []
  have den : ∀ (e : List Net) (s : String), Den (e.map fun n => { n with parent := s }) v x ↔ Den e v x := by
    intro e s
    constructor
    · rintro ⟨m, hm, hx⟩
      obtain ⟨n, hn, rfl⟩ := List.mem_map.1 hm
      exact ⟨n, hn, hx⟩
    · rintro ⟨n, hn, hx⟩
      exact ⟨_, List.mem_map.2 ⟨n, hn, rfl⟩, hx⟩
  unfold chunks AddrMatch
  constructor
  · rintro ⟨k, hk, h1, h2⟩
    obtain ⟨e, he, rfl⟩ := List.mem_map.1 hk
    have he : e.1 ∈ chunkLoop 0 [] l := (List.mem_zipIdx' he).2 ▸ List.getElem_mem _
    refine ⟨?_, h2⟩
    by_cases hl : l = []
    · exact .inl hl
    · right
      rcases h1 with h1 | h1
      · exact absurd (List.map_eq_nil_iff.1 h1) ((ok e.1 he).2 (.inr hl))
      · obtain ⟨n, hn, hx⟩ := (den e.1 _).1 h1
        refine ⟨n, ?_, hx⟩
        rw [← List.nil_append l, ← fl]
        exact List.mem_flatten.2 ⟨e.1, he, hn⟩
  · rintro ⟨h1, h2⟩
    by_cases hl : l = []
    · subst hl
      exact ⟨[], by simp [chunkLoop], .inl rfl, h2⟩
    · rcases h1 with h1 | ⟨n, hn, hx⟩
      · exact absurd h1 hl
      · rw [← List.nil_append l, ← fl] at hn
        obtain ⟨e, he, hn⟩ := List.mem_flatten.1 hn
        obtain ⟨i, hi, rfl⟩ := List.getElem_of_mem he
        refine ⟨_, List.mem_map.2 ⟨((chunkLoop 0 [] l)[i], i), List.mem_zipIdx_iff_getElem?.2 (List.getElem?_eq_getElem hi), rfl⟩, .inr ?_, h2⟩
        exact (den _ _).2 ⟨n, hn, hx⟩

theorem mem_parts {g g' : STerm} (h : g' ∈ parts g) : ∃ s ∈ chunks "src_" g.term.name g.term.sourceAddress,
    ∃ d ∈ chunks "dst_" g.term.name g.term.destinationAddress, ∃ i : Nat, g' = { g with term := { g.term with
      sourceAddress := s, destinationAddress := d, name := g.term.name ++ '_' :: (toString i).toList } } := by
  unfold parts at h
  obtain ⟨e, he, rfl⟩ := List.mem_map.1 h
  have he : e.1 ∈ _ := (List.mem_zipIdx' he).2 ▸ List.getElem_mem _
  obtain ⟨s, hs, he⟩ := List.mem_flatMap.1 he
  obtain ⟨d, hd, he⟩ := List.mem_map.1 he
  refine ⟨s, hs, d, hd, e.2, ?_⟩
  rw [← he]

theorem parts_match {g : STerm} {p : Packet} : (∃ g' ∈ parts g, Matches g'.term p) ↔ Matches g.term p := by
  constructor
  · rintro ⟨g', hg, hm⟩
    obtain ⟨s, hs, d, hd, i, rfl⟩ := mem_parts hg
    obtain ⟨⟨h1, h2, h3⟩, h⟩ := hm
    exact ⟨⟨h1, chunks_match.1 ⟨s, hs, h2⟩, chunks_match.1 ⟨d, hd, h3⟩⟩, h⟩
  · rintro ⟨⟨h1, h2, h3⟩, h⟩
    obtain ⟨s, hs, h2⟩ := chunks_match (side := "src_") (name := g.term.name).2 h2
    obtain ⟨d, hd, h3⟩ := chunks_match (side := "dst_") (name := g.term.name).2 h3
    have hm : (s, d) ∈ (chunks "src_" g.term.name g.term.sourceAddress).flatMap fun s =>
        (chunks "dst_" g.term.name g.term.destinationAddress).map fun d => (s, d) :=
      List.mem_flatMap.2 ⟨s, hs, List.mem_map.2 ⟨d, hd, rfl⟩⟩
    obtain ⟨i, hi, e⟩ := List.getElem_of_mem hm
    refine ⟨_, List.mem_map.2 ⟨((s, d), i), List.mem_zipIdx_iff_getElem?.2 (by rw [List.getElem?_eq_getElem hi, e]), rfl⟩, ?_⟩
    exact ⟨⟨h1, h2, h3⟩, h⟩

/-- What a term of a list decides. -/
def TermDecides (p : Packet) (g : STerm) (w : List String) : Prop := Live g ∧ Matches g.term p ∧ g.term.action = w

/-- C100: splitting changes nothing about what the terms decide. -/
theorem C100_decides (af : String) (gs : List STerm) (p : Packet) (w : List String) :
    First (TermDecides p) (fixLarge af gs) w ↔ First (TermDecides p) gs w := by
  have e1 : fixLarge af gs = (gs.map fun g => (g, if byteLength af g.term > 1023 then parts g else [g])).flatMap Prod.snd := by
    unfold fixLarge
    rw [List.flatMap_map]
  have e2 : gs = (gs.map fun g => (g, if byteLength af g.term > 1023 then parts g else [g])).map Prod.fst := by
    rw [List.map_map]
    exact (List.map_id gs).symm
  rw [e1]
  conv => rhs; rw [e2]
  refine Lemmas.first_blocks (fun g v w h1 h2 => h1.2.2.symm.trans h2.2.2) ?_
  intro b hb v
  obtain ⟨g, hg, rfl⟩ := List.mem_map.1 hb
  dsimp only
  split
  · constructor
    · rintro ⟨g', hg', h1, h2, h3⟩
      have hm := parts_match.1 ⟨g', hg', h2⟩
      obtain ⟨s, _, d, _, i, rfl⟩ := mem_parts hg'
      exact ⟨h1, hm, h3⟩
    · rintro ⟨h1, h2, h3⟩
      obtain ⟨g', hg', hm⟩ := parts_match.2 h2
      refine ⟨g', hg', ?_⟩
      obtain ⟨s, _, d, _, i, rfl⟩ := mem_parts hg'
      exact ⟨h1, hm, h3⟩
  · simp

theorem parts_names (g : STerm) : ((parts g).map fun g' => g'.term.name).Nodup := by
  unfold parts
  rw [List.map_map]
  unfold List.Nodup
  rw [List.pairwise_iff_getElem]
  intro i j hi hj hij e
  rw [List.getElem_map, List.getElem_map] at e
  simp only [Function.comp, List.getElem_zipIdx] at e
  have e := List.append_cancel_left e
  injection e with _ e
  have e : (toString (0 + i)).toList = (toString (0 + j)).toList := e
  have := number_inj e
  omega

/-- C100: no part is too large, but for up to seven networks; see the refutation. Only networks of the family count. -/
theorem C100_size_partial {af : String} {gs : List STerm} {g' : STerm} (h : g' ∈ fixLarge af gs) :
    (((g'.term.sourceAddress ++ g'.term.destinationAddress).filter fun n =>
      decide (af = "mixed" ∨ (n.ver = .v4 ∧ af = "inet") ∨ (n.ver = .v6 ∧ af = "inet6"))).map sizeOfNet).sum ≤ 1030 := by
  have fam : (fun n : Net => decide (af = "mixed" ∨ (n.ver = .v4 ∧ af = "inet") ∨ (n.ver = .v6 ∧ af = "inet6"))) = fun n => inFamily af n.ver := by
    funext n
    unfold inFamily
    rw [Bool.eq_iff_iff]
    cases n.ver <;> simp
  rw [fam]
  unfold fixLarge at h
  obtain ⟨g, hg, h⟩ := List.mem_flatMap.1 h
  have cut : ∀ l : List Net, ((l.filter fun n => inFamily af n.ver).map sizeOfNet).sum ≤ (l.map sizeOfNet).sum := by
    intro l
    induction l with
    | nil => exact Nat.le_refl _
    | cons n l ih =>
      rw [List.filter_cons, List.map_cons, List.sum_cons]
      split
      · rw [List.map_cons, List.sum_cons]; omega
      · omega
  split at h
  · have size : ∀ {side : String} {l k : List Net}, k ∈ chunks side g.term.name l → (k.map sizeOfNet).sum ≤ 515 := by
      intro side l k hk
      unfold chunks at hk
      obtain ⟨e, he, rfl⟩ := List.mem_map.1 hk
      rw [List.map_map]
      exact (chunkLoop_ok l 0 [] rfl (by omega) e.1 ((List.mem_zipIdx' he).2 ▸ List.getElem_mem _)).1
    obtain ⟨s, hs, d, hd, i, rfl⟩ := mem_parts h
    refine Nat.le_trans (cut _) ?_
    dsimp only
    rw [List.map_append, List.sum_append]
    have := size hs
    have := size hd
    omega
  next hb =>
    rw [List.mem_singleton.1 h]
    have : byteLength af g.term ≤ 1023 := by omega
    unfold byteLength at this
    refine Nat.le_trans ?_ (Nat.le_trans this (by omega))
    exact Nat.le_refl _

end Verif.Props
