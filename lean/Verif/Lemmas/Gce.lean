import Verif.Spec.Gce
import Verif.Lemmas.Flat
import Verif.Lemmas.CloudArmor

/-!
Lemmas about the model of capirca/lib/gce.py.
-/

namespace Verif.Gce
open Verif Verif.Spec Verif.Spec.Gce Policy Aclgenerator Verif.Props Nacaddr

/-! ### addresses -/

theorem mem_addresses {v : Ver} {l : List Net} {n : Net} :
    n ∈ addresses v l ↔ n ∈ l ∧ n.ver = v ∧ embedded n = false := by
  unfold addresses getAddressOfVersion
  rw [List.mem_filter, mem_isort, List.mem_filter]
  simp [and_assoc]

theorem addresses_den {v : Ver} {l : List Net} (he : ∀ n ∈ l, embedded n = false) (w : Ver) (x : Nat) :
    Den (addresses v l) w x ↔ w = v ∧ Den l v x := by
  unfold Den
  constructor
  · rintro ⟨n, hn, h⟩
    obtain ⟨h1, h2, _⟩ := mem_addresses.1 hn
    have : w = v := h.1.symm.trans h2
    exact ⟨this, n, h1, this ▸ h⟩
  · rintro ⟨rfl, n, hn, h⟩
    exact ⟨n, mem_addresses.2 ⟨hn, h.1, he n hn⟩, h⟩

theorem inRanges_den {l : List Net} (hw : ∀ n ∈ l, WF n) (v : Ver) (x : Nat) : InRanges l v x ↔ Den l v x := by
  unfold InRanges Den
  constructor
  · rintro ⟨n, hn, h⟩
    exact ⟨n, hn, (Flat.covers_iff (hw n hn) _ _).1 h⟩
  · rintro ⟨n, hn, h⟩
    exact ⟨n, hn, (Flat.covers_iff (hw n hn) _ _).2 h⟩

/-! ### protocols -/

theorem protoNumber_idem (p : Proto) : protoNumber (protoNumber p) = protoNumber p := by
  cases p with
  | num n => rfl
  | str s =>
    by_cases h : allowProtoName.contains s = true
    · have : protoNumber (.str s) = .str s := by unfold protoNumber; dsimp only; rw [if_pos h]
      rw [this, this]
    · cases hl : protoMap.lookup s with
      | some n =>
        have : protoNumber (.str s) = .num n := by unfold protoNumber; dsimp only; rw [if_neg h, hl]
        rw [this]
        rfl
      | none =>
        have : protoNumber (.str s) = .str s := by unfold protoNumber; dsimp only; rw [if_neg h, hl]
        rw [this, this]

theorem iana_known : ∀ e ∈ iana, protoMap.lookup e.1 = some (e.2 : Int) ∧ e.1 ≠ "all" ∧
    (allowProtoName.contains e.1 = true → e ∈ knownNames) := by decide

theorem known_lookup : ∀ e ∈ knownNames, protoMap.lookup e.1 = some (e.2 : Int) := by decide

theorem protoIs_iff {s : String} (hs : s ∈ iana.map Prod.fst) {p : Packet} (hp : p.proto ∈ iana.map Prod.fst) :
    ProtoIs p (protoNumber (.str s)) ↔ p.proto = s := by
  obtain ⟨e, he, rfl⟩ := List.mem_map.1 hs
  obtain ⟨h1, h2, h3⟩ := iana_known e he
  rw [← Flat.numberIs_iff h1 hp]
  by_cases h : allowProtoName.contains e.1 = true
  · have : protoNumber (.str e.1) = .str e.1 := by unfold protoNumber; dsimp only; rw [if_pos h]
    rw [this]
    unfold ProtoIs
    constructor
    · rintro (h | ⟨k, hk, h⟩)
      · exact absurd h h2
      · have := (known_lookup _ hk).symm.trans h1
        rw [← Option.some.inj this]
        exact h
    · exact fun h' => .inr ⟨e.2, h3 h, h'⟩
  · have : protoNumber (.str e.1) = .num e.2 := by unfold protoNumber; dsimp only; rw [if_neg h, h1]
    rw [this]
    exact Iff.rfl

theorem protos_hit {v : Ver} {l : List String} (hs : ∀ s ∈ l, s ∈ iana.map Prod.fst) {p : Packet}
    (hp : p.proto ∈ iana.map Prod.fst) (hd : ∀ s ∈ l, dropped v (protoNumber (.str s)) = true → p.proto ≠ s) :
    (∃ q ∈ filteredProtocols v ((l.map .str).map protoNumber), ProtoIs p q) ↔ OneOf l p.proto := by
  unfold filteredProtocols OneOf
  by_cases h0 : l = []
  · subst h0
    simp [ProtoIs]
  · rw [if_neg (by simpa using h0)]
    simp only [h0, false_or]
    constructor
    · rintro ⟨q, hq, h⟩
      obtain ⟨s', hs', rfl⟩ := List.mem_map.1 (List.mem_filter.1 hq).1
      obtain ⟨s, hm, rfl⟩ := List.mem_map.1 hs'
      rw [(protoIs_iff (hs s hm) hp).1 h]
      exact hm
    · intro hm
      refine ⟨_, List.mem_filter.2 ⟨List.mem_map.2 ⟨_, List.mem_map.2 ⟨_, hm, rfl⟩, rfl⟩, ?_⟩, (protoIs_iff hp hp).2 rfl⟩
      cases h : dropped v (protoNumber (.str p.proto)) with
      | false => rfl
      | true => exact absurd rfl (hd _ hm h)

theorem dropped_names : ∀ e ∈ iana, ∀ v, dropped v (protoNumber (.str e.1)) = true →
    (v = .v6 ∧ (e.1 = "icmp" ∨ e.1 = "igmp")) ∨ (v = .v4 ∧ e.1 = "icmpv6") := by
  intro e he v
  cases v
  · revert e
    decide
  · revert e
    decide

theorem dropped_iff {v : Ver} {s : String} (hs : s ∈ iana.map Prod.fst) (h : dropped v (protoNumber (.str s)) = true) :
    (v = .v6 ∧ (s = "icmp" ∨ s = "igmp")) ∨ (v = .v4 ∧ s = "icmpv6") := by
  obtain ⟨e, he, rfl⟩ := List.mem_map.1 hs
  exact dropped_names e he v h

/-! ### the rules of a pass -/

theorem numbered_exists {put : List Net → Rule → Rule} {many : Bool} {r : Rule} {P : Rule → Prop}
    (hP : ∀ ch nm, P (put ch { r with name := nm }) ↔ P (put ch r)) : ∀ {i : Nat} {cs : List (List Net)},
    (∃ x ∈ numbered put many r i cs, P x) ↔ ∃ ch ∈ cs, P (put ch r)
  | i, [] => by simp [numbered]
  | i, ch :: cs => by
    rw [numbered]
    simp only [List.mem_cons, or_and_right, exists_or, exists_eq_left, numbered_exists hP, hP]

theorem numbered_mem {put : List Net → Rule → Rule} {many : Bool} {r x : Rule} : ∀ {i : Nat} {cs : List (List Net)},
    x ∈ numbered put many r i cs → ∃ nm, ∃ ch ∈ cs, x = put ch { r with name := nm }
  | i, [], h => by cases h
  | i, ch :: cs, h => by
    rw [numbered] at h
    rcases List.mem_cons.1 h with rfl | h
    · exact ⟨_, ch, by simp, rfl⟩
    · obtain ⟨nm, ch', h1, h2⟩ := numbered_mem h
      exact ⟨nm, ch', List.mem_cons_of_mem _ h1, h2⟩

/-- The rules differ from the common dictionary in name and ranges only. -/
theorem split_mem {sa da : List Net} {r x : Rule} (h : x ∈ split sa da r) : ∃ nm s d,
    x = { r with name := nm, sourceRanges := s, destinationRanges := d } ∧
    ((s = r.sourceRanges ∧ d = r.destinationRanges) ∨
      (s ∈ CloudArmor.chunks 256 sa ∧ d = r.destinationRanges) ∨ (s = r.sourceRanges ∧ d ∈ CloudArmor.chunks 256 da)) := by
  unfold split at h
  split at h
  · obtain ⟨nm, ch, h1, rfl⟩ := numbered_mem h
    exact ⟨nm, ch, _, rfl, .inr (.inl ⟨h1, rfl⟩)⟩
  · split at h
    · obtain ⟨nm, ch, h1, rfl⟩ := numbered_mem h
      exact ⟨nm, _, ch, rfl, .inr (.inr ⟨rfl, h1⟩)⟩
    · rw [List.mem_singleton.1 h]
      exact ⟨_, _, _, rfl, .inl ⟨rfl, rfl⟩⟩

/-- The parts of a match that do not depend on the ranges. -/
def Common (r : Rule) (f : Flow) : Prop :=
  (r.network.getD "" = f.network ∧ r.direction = f.direction) ∧
  (OneOf r.targetTags f.tag ∧ OneOf r.targetAccounts f.account) ∧ ∃ e ∈ r.entries, EntryHits e f.packet

theorem hits_iff {r : Rule} {f : Flow} : Hits r f ↔ Common r f ∧ PeerIs r f := by
  unfold Hits Common
  constructor
  · rintro ⟨a, b, c, d⟩
    exact ⟨⟨a, b, d⟩, c⟩
  · rintro ⟨⟨a, b, d⟩, c⟩
    exact ⟨a, b, c, d⟩

theorem chunks_ranges {l : List Net} {v : Ver} {x : Nat} :
    (∃ ch ∈ CloudArmor.chunks 256 l, InRanges ch v x) ↔ InRanges l v x := by
  unfold InRanges
  constructor
  · rintro ⟨ch, h1, n, h2, h3⟩
    refine ⟨n, ?_, h3⟩
    rw [← CloudArmor.chunks_flatten (n := 256) (by decide) l]
    exact List.mem_flatten.2 ⟨ch, h1, h2⟩
  · rintro ⟨n, h1, h2⟩
    rw [← CloudArmor.chunks_flatten (n := 256) (by decide) l] at h1
    obtain ⟨ch, h3, h4⟩ := List.mem_flatten.1 h1
    exact ⟨ch, h3, n, h4, h2⟩

theorem split_source {sa da : List Net} {r : Rule} {f : Flow} (hs : sa ≠ []) (hd : f.direction = "INGRESS")
    (ht : r.sourceTags = []) (ha : r.sourceAccounts = []) :
    (∃ x ∈ split sa da r, Hits x f) ↔ Common r f ∧ InRanges sa f.packet.ver f.packet.src := by
  unfold split
  rw [if_pos (by simpa using hs), numbered_exists (P := fun x => Hits x f) (fun _ _ => Iff.rfl), ← chunks_ranges]
  have key : ∀ ch ∈ CloudArmor.chunks 256 sa, (Hits (putSource ch r) f ↔ Common r f ∧ InRanges ch f.packet.ver f.packet.src) := by
    intro ch hc
    have hne := (CloudArmor.chunks_mem (by decide) hc).1
    rw [hits_iff]
    refine and_congr Iff.rfl ?_
    unfold PeerIs putSource
    rw [if_pos hd]
    simp [ht, ha, hne]
  constructor
  · rintro ⟨ch, h1, h2⟩
    exact ⟨((key ch h1).1 h2).1, ch, h1, ((key ch h1).1 h2).2⟩
  · rintro ⟨h1, ch, h2, h3⟩
    exact ⟨ch, h2, (key ch h2).2 ⟨h1, h3⟩⟩

theorem split_destination {da : List Net} {r : Rule} {f : Flow} (hs : da ≠ []) (hd : f.direction ≠ "INGRESS") :
    (∃ x ∈ split [] da r, Hits x f) ↔ Common r f ∧ InRanges da f.packet.ver f.packet.dst := by
  unfold split
  rw [if_neg (by simp), if_pos (by simpa using hs), numbered_exists (P := fun x => Hits x f) (fun _ _ => Iff.rfl),
    ← chunks_ranges]
  have key : ∀ ch ∈ CloudArmor.chunks 256 da,
      (Hits (putDestination ch r) f ↔ Common r f ∧ InRanges ch f.packet.ver f.packet.dst) := by
    intro ch hc
    have hne := (CloudArmor.chunks_mem (by decide) hc).1
    rw [hits_iff]
    refine and_congr Iff.rfl ?_
    unfold PeerIs putDestination
    rw [if_neg hd]
    simp [hne]
  constructor
  · rintro ⟨ch, h1, h2⟩
    exact ⟨((key ch h1).1 h2).1, ch, h1, ((key ch h1).1 h2).2⟩
  · rintro ⟨h1, ch, h2, h3⟩
    exact ⟨ch, h2, (key ch h2).2 ⟨h1, h3⟩⟩

theorem convertRest_ok {c : Ctx} {v : Ver} {g : GTerm} {t : Term} {name desc : Str} {ps : List Proto} {rs : List Rule}
    (h : convertRest c v g t name desc ps = .ok rs) : t.destinationPort.length ≤ 256 ∧ ∃ action, actionOf t = .ok action ∧
    rs = split (addresses v t.sourceAddress) (addresses v t.destinationAddress) (protoDict c v g t name desc ps action) ∧
    ∀ r ∈ rs, r.name.length ≤ 63 := by
  unfold convertRest at h
  split at h
  · cases h
  next hp =>
    obtain ⟨action, h1, h⟩ := bind_ok h
    unfold checkNames at h
    split at h
    · cases h
    next hn =>
      cases h
      refine ⟨by omega, action, h1, rfl, fun r hr => ?_⟩
      have := hn
      simp only [List.any_eq_true, decide_eq_true_eq, not_exists, not_and] at this
      have := this r hr
      omega

/-- What all rules of a pass have in common. -/
theorem convert_mem {c : Ctx} {v : Ver} {g : GTerm} {t : Term} {name desc : Str} {ps : List Proto} {rs : List Rule}
    (h : convert c v g t name desc ps = .ok rs) {r : Rule} (hr : r ∈ rs) : ∃ action nm s d, actionOf t = .ok action ∧
    r = { protoDict c v g t name desc (filteredProtocols v ps) action with
          name := nm, sourceRanges := s, destinationRanges := d } ∧
    s.length ≤ 256 ∧ d.length ≤ 256 ∧ nm.length ≤ 63 ∧ tooMany c.direction g t = false ∧ t.destinationPort.length ≤ 256 ∧
    filteredProtocols v ps ≠ [] := by
  unfold convert at h
  split at h
  · cases h
  next htm =>
    split at h
    · cases h; cases hr
    · split at h
      · cases h; cases hr
      · split at h
        · cases h; cases hr
        next hf =>
          obtain ⟨hp, action, h1, rfl, h2⟩ := convertRest_ok h
          obtain ⟨nm, s, d, rfl, hh⟩ := split_mem hr
          refine ⟨action, nm, s, d, h1, rfl, ?_, ?_, h2 _ hr, by simpa using htm, hp, by simpa using hf⟩
          · rcases hh with ⟨rfl, _⟩ | ⟨h, _⟩ | ⟨rfl, _⟩
            · simp [protoDict]
            · exact (CloudArmor.chunks_mem (by decide) h).2
            · simp [protoDict]
          · rcases hh with ⟨_, rfl⟩ | ⟨_, rfl⟩ | ⟨_, h⟩
            · simp [protoDict]
            · simp [protoDict]
            · exact (CloudArmor.chunks_mem (by decide) h).2

theorem network_getD (s : String) : ((if s = "" then none else some s : Option String).getD "") = s := by
  split
  next h => exact h.symm
  · rfl

theorem common_iff {c : Ctx} {v : Ver} {g : GTerm} {t : Term} {name desc : Str} {ps : List Proto} {action : String} {f : Flow} :
    Common (protoDict c v g t name desc ps action) f ↔
      (c.network = f.network ∧ c.direction = f.direction) ∧
      (OneOf (targetTags c.direction t) f.tag ∧ OneOf g.dstAccounts f.account) ∧
      (∃ q ∈ ps, ProtoIs f.packet q) ∧
      (t.destinationPort = [] ∨ ∃ r ∈ t.destinationPort, Flat.PortIn f.packet f.packet.dport r) := by
  unfold Common protoDict
  dsimp only
  rw [network_getD]
  refine and_congr Iff.rfl (and_congr Iff.rfl ?_)
  unfold EntryHits
  constructor
  · rintro ⟨e, he, h1, h2⟩
    obtain ⟨q, hq, rfl⟩ := List.mem_map.1 he
    exact ⟨⟨q, hq, h1⟩, h2⟩
  · rintro ⟨⟨q, hq, h1⟩, h2⟩
    exact ⟨_, List.mem_map.2 ⟨q, hq, rfl⟩, h1, h2⟩

/-- The conditions of a pass that do not depend on the other side. -/
def Here (c : Ctx) (v : Ver) (g : GTerm) (t : Term) (ps : List Proto) (f : Flow) : Prop :=
  (c.network = f.network ∧ c.direction = f.direction) ∧
  (OneOf (targetTags c.direction t) f.tag ∧ OneOf g.dstAccounts f.account) ∧
  (∃ q ∈ filteredProtocols v ps, ProtoIs f.packet q) ∧
  (t.destinationPort = [] ∨ ∃ r ∈ t.destinationPort, Flat.PortIn f.packet f.packet.dport r)

theorem here_some {c : Ctx} {v : Ver} {g : GTerm} {t : Term} {ps : List Proto} {f : Flow} (h : Here c v g t ps f) :
    filteredProtocols v ps ≠ [] := by
  obtain ⟨_, _, ⟨q, hq, _⟩, _⟩ := h
  exact fun h => by rw [h] at hq; cases hq

/-- A pass over a term with source addresses. -/
theorem convert_source {c : Ctx} {v : Ver} {g : GTerm} {t : Term} {name desc : Str} {ps : List Proto} {rs : List Rule}
    (h : convert c v g t name desc ps = .ok rs) {f : Flow} (hd : f.direction = "INGRESS") (hs : t.sourceAddress ≠ [])
    (hdst : t.destinationAddress = []) (ht : t.sourceTag = []) (ha : g.srcAccounts = []) (hw : ∀ n ∈ t.sourceAddress, WF n) :
    (∃ r ∈ rs, Hits r f) ↔ Here c v g t ps f ∧ Den (addresses v t.sourceAddress) f.packet.ver f.packet.src := by
  have hw' : ∀ n ∈ addresses v t.sourceAddress, WF n := fun n hn => hw n (mem_addresses.1 hn).1
  unfold convert at h
  split at h
  · cases h
  · rw [if_neg (by simp [leftToInet, hs])] at h
    by_cases he : addresses v t.sourceAddress = []
    · rw [if_pos (by simp [he, hs])] at h
      cases h
      rw [he]
      exact iff_of_false (by simp) (by simp [Den])
    · rw [if_neg (by simp [he, hdst])] at h
      split at h
      next hf =>
        cases h
        refine iff_of_false (by simp) ?_
        rintro ⟨h, _⟩
        exact here_some h (by simpa using hf)
      · obtain ⟨_, action, _, rfl, _⟩ := convertRest_ok h
        rw [split_source he hd (by simp [protoDict, sourceTags, ht]) (by simp [protoDict, ha]), common_iff, inRanges_den hw']
        exact Iff.rfl

/-- A pass over a term with destination addresses. -/
theorem convert_destination {c : Ctx} {v : Ver} {g : GTerm} {t : Term} {name desc : Str} {ps : List Proto} {rs : List Rule}
    (h : convert c v g t name desc ps = .ok rs) {f : Flow} (hd : f.direction ≠ "INGRESS") (hs : t.destinationAddress ≠ [])
    (hsrc : t.sourceAddress = []) (hw : ∀ n ∈ t.destinationAddress, WF n) :
    (∃ r ∈ rs, Hits r f) ↔ Here c v g t ps f ∧ Den (addresses v t.destinationAddress) f.packet.ver f.packet.dst := by
  have hw' : ∀ n ∈ addresses v t.destinationAddress, WF n := fun n hn => hw n (mem_addresses.1 hn).1
  have he0 : addresses v t.sourceAddress = [] := by rw [hsrc]; rfl
  unfold convert at h
  split at h
  · cases h
  · rw [if_neg (by simp [leftToInet, hs])] at h
    by_cases he : addresses v t.destinationAddress = []
    · rw [if_pos (by simp [he, hs])] at h
      cases h
      rw [he]
      exact iff_of_false (by simp) (by simp [Den])
    · rw [if_neg (by simp [he, hsrc])] at h
      split at h
      next hf =>
        cases h
        refine iff_of_false (by simp) ?_
        rintro ⟨h, _⟩
        exact here_some h (by simpa using hf)
      · obtain ⟨_, action, _, rfl, _⟩ := convertRest_ok h
        rw [he0, split_destination he hd, common_iff, inRanges_den hw']
        exact Iff.rfl

/-- A pass over a term with source tags only. -/
theorem convert_tags {c : Ctx} {v : Ver} {g : GTerm} {t : Term} {name desc : Str} {ps : List Proto} {rs : List Rule}
    (h : convert c v g t name desc ps = .ok rs) {f : Flow} (hc : c.direction = "INGRESS") (hd : f.direction = "INGRESS")
    (hs : t.sourceAddress = []) (hdst : t.destinationAddress = []) (ht : t.sourceTag ≠ []) (hn : "" ∉ t.sourceTag)
    (ha : g.srcAccounts = []) :
    (∃ r ∈ rs, Hits r f) ↔ ¬ (c.mixed = true ∧ v = .v6) ∧ Here c v g t ps f ∧ f.packet.srcTag ∈ t.sourceTag := by
  have htag : sourceTags c.direction t = t.sourceTag := by
    unfold sourceTags
    rw [if_pos hc, List.filter_eq_self]
    intro s hm
    simp only [bne_iff_ne, ne_eq]
    rintro rfl
    exact hn hm
  have hleft : leftToInet c v t = true ↔ c.mixed = true ∧ v = .v6 := by
    unfold leftToInet
    rw [htag]
    simp [hs, hdst, ht]
  unfold convert at h
  split at h
  · cases h
  · by_cases hl : c.mixed = true ∧ v = .v6
    · rw [if_pos (hleft.2 hl)] at h
      cases h
      exact iff_of_false (by simp) (by simp [hl])
    · rw [if_neg (fun h => hl (hleft.1 h)), if_neg (by simp [hs, hdst])] at h
      simp only [hl, not_false_iff, true_and]
      split at h
      next hf =>
        cases h
        refine iff_of_false (by simp) ?_
        rintro ⟨h, _⟩
        exact here_some h (by simpa using hf)
      · obtain ⟨_, action, _, rfl, _⟩ := convertRest_ok h
        have e1 : addresses v t.sourceAddress = [] := by rw [hs]; rfl
        have e2 : addresses v t.destinationAddress = [] := by rw [hdst]; rfl
        rw [e1, e2]
        unfold split
        rw [if_neg (by simp), if_neg (by simp)]
        simp only [List.mem_singleton, exists_eq_left]
        rw [hits_iff, common_iff]
        refine and_congr Iff.rfl ?_
        unfold PeerIs
        rw [if_pos hd]
        simp [protoDict, htag, ht, ha, InRanges]

/-! ### the loops -/

theorem protocols_ok {ps l : List Proto} (h : protocols ps = .ok l) : l = ps.map protoNumber := by
  unfold protocols at h
  split at h
  · cases h
  · cases h; rfl

theorem newTerm_ok {dir : String} {t : Term} {ps : List Proto} {q : Term × List Proto} (h : newTerm dir t ps = .ok q) :
    q.2 = ps.map protoNumber ∧ refused dir t = false ∧ flatten dir t = .ok q.1 := by
  unfold newTerm at h
  obtain ⟨ps', h1, h⟩ := bind_ok h
  split at h
  · cases h
  next hr =>
    obtain ⟨t', h2, h⟩ := bind_ok h
    cases h
    exact ⟨protocols_ok h1, by simpa using hr, h2⟩

theorem addCounts_ok {limit : Nat} : ∀ {rs : List Rule} {n m : Nat}, addCounts limit n rs = .ok m →
    m = n + (rs.map attributeCount).sum ∧ (rs = [] ∨ limit = 0 ∨ m ≤ limit)
  | [], n, m, h => by cases h; exact ⟨by simp, .inl rfl⟩
  | r :: rs, n, m, h => by
    rw [addCounts] at h
    split at h
    · cases h
    next hl =>
      obtain ⟨h1, h2⟩ := addCounts_ok h
      refine ⟨by rw [h1, List.map_cons, List.sum_cons]; omega, .inr ?_⟩
      rcases h2 with rfl | h2 | h2
      · simp at h1
        omega
      · exact .inl h2
      · exact .inr h2

/-- The rules of a filter are blocks, one for each term. -/
theorem termsLoop_blocks {c : Ctx} {limit : Nat} {vs : List Ver} : ∀ {gs : List GTerm} {names header : List Str} {n : Nat} {o : Out},
    termsLoop c limit vs names header n gs = .ok o →
    ∃ bs : List (GTerm × List Rule), o.rules = bs.flatMap Prod.snd ∧ bs.map Prod.fst = gs ∧
      ∀ b ∈ bs, (b.1.reply = true ∧ b.2 = []) ∨ (b.1.reply = false ∧ ∃ name header n o, fixName c.direction b.1.term.name = .ok name ∧
        oneTerm c limit vs header n b.1 name = .ok o ∧ o.rules = b.2)
  | [], names, header, n, o, h => by
    cases h
    exact ⟨[], rfl, rfl, by simp⟩
  | g :: gs, names, header, n, o, h => by
    rw [termsLoop] at h
    split at h
    next hr =>
      obtain ⟨bs, h1, h2, h3⟩ := termsLoop_blocks h
      refine ⟨(g, []) :: bs, by rw [h1]; rfl, by rw [List.map_cons, h2], fun b hb => ?_⟩
      rcases List.mem_cons.1 hb with rfl | hb
      · exact .inl ⟨hr, rfl⟩
      · exact h3 b hb
    next hr =>
      obtain ⟨name, h1, h⟩ := bind_ok h
      split at h
      · cases h
      · obtain ⟨o1, h2, h⟩ := bind_ok h
        obtain ⟨q, h3, h⟩ := bind_ok h
        cases h
        obtain ⟨bs, h4, h5, h6⟩ := termsLoop_blocks h3
        refine ⟨(g, o1.rules) :: bs, by rw [h4]; rfl, by rw [List.map_cons, h5], fun b hb => ?_⟩
        rcases List.mem_cons.1 hb with rfl | hb
        · exact .inr ⟨by simpa using hr, name, header, n, o1, h1, h2, rfl⟩
        · exact h6 b hb

/-- The rules of one term are those of its passes. -/
theorem famLoop_mem {c : Ctx} {limit : Nat} {g : GTerm} {name : Str} : ∀ {vs : List Ver} {t : Term} {ps : List Proto}
    {comment : List Str} {n : Nat} {o : Out}, famLoop c limit g name vs t ps comment n = .ok o → ∀ r ∈ o.rules,
    ∃ v ∈ vs, ∃ t0 t' comment' ps' rs, flatten c.direction t0 = .ok t' ∧ t0.action = t'.action ∧ t'.action = t.action ∧
      convert c v g t' name (describe (withOwner g comment')) ps' = .ok rs ∧ r ∈ rs
  | [], t, ps, comment, n, o, h, r, hr => by cases h; cases hr
  | v :: vs, t, ps, comment, n, o, h, r, hr => by
    rw [famLoop] at h
    obtain ⟨q, h1, h⟩ := bind_ok h
    obtain ⟨rs, h2, h⟩ := bind_ok h
    obtain ⟨m, _, h⟩ := bind_ok h
    obtain ⟨o', h3, h⟩ := bind_ok h
    cases h
    obtain ⟨_, _, hf⟩ := newTerm_ok h1
    have ha : q.1.action = t.action := by
      unfold flatten at hf
      split at hf
      · obtain ⟨t', h4, h5⟩ := bind_ok hf
        obtain ⟨_, _, _, _, _, _, rfl, _⟩ := flattenAll_shape h4
        unfold checkLeft at h5
        split at h5
        · cases h5
        · rw [← Except.ok.inj h5]
      · rw [← Except.ok.inj hf]
    rcases List.mem_append.1 hr with hr | hr
    · exact ⟨v, by simp, t, q.1, comment, q.2, rs, hf, ha.symm, ha, h2, hr⟩
    · obtain ⟨w, hw, t0, t', cm, ps', rs', h4, h5, h6, h7, h8⟩ := famLoop_mem h3 r hr
      exact ⟨w, List.mem_cons_of_mem _ hw, t0, t', cm, ps', rs', h4, h5, h6.trans ha, h7, h8⟩

end Verif.Gce
