import Verif.Spec.Nftables
import Verif.Lemmas.Iface
import Verif.Lemmas.Flat
import Verif.Lemmas.FirstMatch
import Verif.Lemmas.Exclude
import Verif.Props.Policy

/-!
Properties of the model of capirca/lib/nftables.py: C87 to C90.
-/

namespace Verif.Props
open Verif Verif.Spec Verif.Spec.Nftables Verif.Nftables Policy Aclgenerator Nacaddr Lemmas

/-- The terms that are rendered faithfully in a table for packets of the families `fam`. For what happens without the
conditions beyond the tool's own checks, see the refutations. -/
structure NftFits (fam : Ver → Prop) (g : NTerm) : Prop where
  keywords : initCheck Nftables.tables [(["nftables"], [kterm g.term])] = .ok ()
  sane : sanityCheck g.term = .ok ()
  action : ∃ w ∈ ["accept", "deny", "reject"], g.term.action = [w]
  family : g.term.restrictAddressFamily = none
  untagged : Untagged g.term
  src : ∀ n ∈ g.term.sourceAddress ++ g.term.sourceAddressExclude, WF n
  dst : ∀ n ∈ g.term.destinationAddress ++ g.term.destinationAddressExclude, WF n
  srcLeft : g.term.sourceAddressExclude ≠ [] → ∃ v x, Den g.term.sourceAddress v x ∧ ¬ Den g.term.sourceAddressExclude v x
  dstLeft : g.term.destinationAddressExclude ≠ [] →
    ∃ v x, Den g.term.destinationAddress v x ∧ ¬ Den g.term.destinationAddressExclude v x
  protos : ∀ s ∈ g.term.protocol, ∃ k, (s, k) ∈ iana ∧ (s, k) ∈ protoNumbers
  ports : g.term.sourcePort ≠ [] ∨ g.term.destinationPort ≠ [] → g.term.protocol ≠ [] ∧
    (g.term.protocol.length = 1 ∨ (g.term.sourcePort ≠ [] ∧ g.term.destinationPort ≠ []))
  iface : g.term.sourceInterface ≠ none ∨ g.term.destinationInterface ≠ none →
    g.term.protocol.length ≤ 1 ∨ (g.term.sourcePort = [] ∧ g.term.destinationPort = [])
  types : g.term.icmpType ≠ [] → (g.term.protocol = ["icmp"] ∧ ∀ s ∈ g.term.icmpType, s ∈ icmpV4.map Prod.fst) ∨
    (g.term.protocol = ["icmpv6"] ∧ ∀ s ∈ g.term.icmpType, s ∈ icmpV6.map Prod.fst)
  four : fam .v4 → "icmpv6" ∈ g.term.protocol → ∀ s ∈ g.term.protocol, s = "icmpv6"
  six : fam .v6 → "icmp" ∈ g.term.protocol → ∀ s ∈ g.term.protocol, s = "icmp"

/-! ### what terms match -/

theorem nft_tables : ∀ e ∈ Nftables.tables.subTokens, e.1 ∈ Nftables.tables.tokens := by decide

theorem nft_active {g : NTerm} (h : Live g) : Active "nftables" (kterm g.term) := ⟨h.2.2.2.2.1, h.2.2.2.2.2⟩

theorem nft_options {fam : Ver → Prop} {g : NTerm} (f : NftFits fam g) (hl : Live g) : g.term.option = [] := by
  cases ho : g.term.option with
  | nil => rfl
  | cons o os =>
    have h1 : o ∈ ["established", "tcp-established"] :=
      word_known (g := Nftables.tables) nft_tables (nft_active hl) f.keywords (el := "option") (l := g.term.option)
        (by simp [attrsOf]) rfl (by decide) (by rw [ho]; simp)
    have hm : o ∈ g.term.option := by rw [ho]; simp
    simp only [List.mem_cons, List.not_mem_nil, or_false] at h1
    rcases h1 with rfl | rfl
    · exact absurd hm hl.2.2.1
    · exact absurd hm hl.2.2.2.1

theorem nft_matches {fam : Ver → Prop} {g : NTerm} (f : NftFits fam g) (hl : Live g) {p : Packet} :
    Matches g.term p ↔ (AddrMatch g.term.sourceAddress g.term.sourceAddressExclude p.ver p.src ∧
        AddrMatch g.term.destinationAddress g.term.destinationAddressExclude p.ver p.dst) ∧
      (OneOf g.term.protocol p.proto ∧ (PortMatch g.term.sourcePort p.sport ∧ PortMatch g.term.destinationPort p.dport) ∧
        OneOf g.term.icmpType p.icmpType) ∧
      (g.term.sourceInterface = none ∨ g.term.sourceInterface = some p.inInterface) ∧
      (g.term.destinationInterface = none ∨ g.term.destinationInterface = some p.outInterface) := by
  have un := fun (s : String) {v : Val} => unset (g := Nftables.tables) nft_tables rfl (nft_active hl) f.keywords s (v := v)
  have b : Basic (noIface g.term) := basic_of_iface (g := Nftables.tables) nft_tables rfl (by decide) (nft_active hl) f.keywords
  have h5 : g.term.protocolExcept = [] := Cisco.wordsVal_falsy (un "protocol_except" (by simp [attrsOf]) (by decide))
  have h9 : g.term.icmpCode = [] := Cisco.listVal_falsy (un "icmp_code" (by simp [attrsOf]) (by decide))
  rw [matches_iface b f.untagged (.inl f.family)]
  unfold MatchProto
  rw [h5, h9, nft_options f hl]
  constructor
  · rintro ⟨⟨a, c, d, e, _⟩, i⟩
    exact ⟨a, ⟨c.1, d, e.1⟩, i⟩
  · rintro ⟨a, ⟨c, d, e⟩, i⟩
    exact ⟨⟨a, ⟨c, by simp⟩, d, ⟨e, .inl rfl⟩, by simp⟩, i⟩

/-! ### addresses -/

theorem removeAll_spec : ∀ {es l r : List Net}, (∀ n ∈ l, WF n) → (∀ n ∈ es, WF n) → removeAll l es = .ok r →
    (∀ n ∈ r, WF n) ∧ ∀ v x, Den r v x ↔ Den l v x ∧ ¬ Den es v x
  | [], l, r, hl, _, h => by
    cases h
    exact ⟨hl, fun v x => by simp⟩
  | e :: es, l, r, hl, he, h => by
    unfold removeAll at h
    obtain ⟨q, h1, h⟩ := bind_ok h
    obtain ⟨q', h2, h3, h4, _⟩ := removeAddressFromList_spec (he e (by simp)) l hl
    rw [h1] at h2
    cases h2
    obtain ⟨h5, h6⟩ := removeAll_spec h3 (fun n hn => he n (List.mem_cons_of_mem _ hn)) h
    refine ⟨h5, fun v x => ?_⟩
    rw [h6, h4, den_cons, not_or, and_assoc]

theorem removed_iff {l es r : List Net} (w : ∀ n ∈ l ++ es, WF n) (hl : es ≠ [] → ∃ v x, Den l v x ∧ ¬ Den es v x)
    (h : removeAll l es = .ok r) (v : Ver) (x : Nat) : (r = [] ∨ Den r v x) ↔ AddrMatch l es v x := by
  obtain ⟨w1, w2⟩ := addrMatch_wf w
  obtain ⟨h1, h2⟩ := removeAll_spec w1 w2 h
  unfold AddrMatch
  by_cases he : es = []
  · subst he
    cases h
    simp
  · obtain ⟨v', x', h3⟩ := hl he
    have h4 := (h2 v' x').2 h3
    have n1 : r ≠ [] := by rintro rfl; simp at h4
    have n2 : l ≠ [] := by rintro rfl; simp at h3
    rw [h2]
    simp [n1, n2]

theorem inSet_filter {l : List Net} (w : ∀ n ∈ l, WF n) (v : Ver) (x : Nat) :
    (∃ n ∈ l.filter (fun n => n.ver == v), Flat.Covers (n.ver, n.addr, n.plen) v x) ↔ Den l v x := by
  constructor
  · rintro ⟨n, hn, h⟩
    exact ⟨n, (List.mem_filter.1 hn).1, (Flat.covers_iff (w n (List.mem_filter.1 hn).1) v x).1 h⟩
  · rintro ⟨n, hn, h⟩
    have := (Flat.covers_iff (w n hn) v x).2 h
    exact ⟨n, List.mem_filter.2 ⟨hn, by simpa using this.1.symm⟩, this⟩

theorem filter_none {l : List Net} {v : Ver} (h : l.filter (fun n => n.ver == v) = []) (w : ∀ n ∈ l, WF n) (x : Nat) :
    ¬ Den l v x := by
  rw [← inSet_filter w, h]
  simp

/-- The condition of the term on an address. -/
def AddrIs (l : List Net) (v : Ver) (x : Nat) : Prop := l = [] ∨ Den l v x

theorem addr_complete {v : Ver} {src dst : List Net} (ws : ∀ n ∈ src, WF n) (wd : ∀ n ∈ dst, WF n) {p : Packet} (hv : p.ver = v)
    (h1 : AddrIs src p.ver p.src) (h2 : AddrIs dst p.ver p.dst) :
    ((addrStatement v src dst).isNone && (!src.isEmpty || !dst.isEmpty)) = false ∧
    Flat.IfSet (addrStatement v src dst) (AddrsHit · p) := by
  subst hv
  unfold addrStatement
  unfold AddrIs at h1 h2
  by_cases hs : src = [] <;> by_cases hd : dst = []
  · simp [hs, hd, Flat.ifSet_none]
  · have h2 := h2.resolve_left hd
    have hf : dst.filter (fun n => n.ver == p.ver) ≠ [] := fun h => filter_none h wd _ h2
    simp only [hs, List.isEmpty_nil, List.isEmpty_eq_false_iff.2 hd, List.isEmpty_eq_false_iff.2 hf]
    simp only [Bool.not_true, Bool.not_false, Bool.and_true, Bool.false_eq_true, if_false, if_true]
    exact ⟨rfl, Flat.ifSet_some.2 ⟨rfl, .inl rfl, .inr ((inSet_filter wd _ _).2 h2)⟩⟩
  · have h1 := h1.resolve_left hs
    have hf : src.filter (fun n => n.ver == p.ver) ≠ [] := fun h => filter_none h ws _ h1
    simp only [hd, List.isEmpty_nil, List.isEmpty_eq_false_iff.2 hs, List.isEmpty_eq_false_iff.2 hf]
    simp only [Bool.not_true, Bool.not_false, Bool.and_false, Bool.false_eq_true, if_false, if_true]
    exact ⟨rfl, Flat.ifSet_some.2 ⟨rfl, .inr ((inSet_filter ws _ _).2 h1), .inl rfl⟩⟩
  · have h1 := h1.resolve_left hs
    have h2 := h2.resolve_left hd
    have hf : src.filter (fun n => n.ver == p.ver) ≠ [] := fun h => filter_none h ws _ h1
    have hg : dst.filter (fun n => n.ver == p.ver) ≠ [] := fun h => filter_none h wd _ h2
    simp only [List.isEmpty_eq_false_iff.2 hs, List.isEmpty_eq_false_iff.2 hd, List.isEmpty_eq_false_iff.2 hf,
      List.isEmpty_eq_false_iff.2 hg]
    simp only [Bool.not_false, Bool.and_true, if_true]
    exact ⟨rfl, Flat.ifSet_some.2 ⟨rfl, .inr ((inSet_filter ws _ _).2 h1), .inr ((inSet_filter wd _ _).2 h2)⟩⟩

theorem addr_ver {v : Ver} {src dst : List Net} {a : Addrs} (h : addrStatement v src dst = some a) : a.ver = v := by
  unfold addrStatement at h
  dsimp only at h
  repeat' split at h
  all_goals first | (cases h; rfl) | cases h

theorem addr_sound {v : Ver} {src dst : List Net} (ws : ∀ n ∈ src, WF n) (wd : ∀ n ∈ dst, WF n) {p : Packet}
    (hn : ((addrStatement v src dst).isNone && (!src.isEmpty || !dst.isEmpty)) = false)
    (h : Flat.IfSet (addrStatement v src dst) (AddrsHit · p)) : AddrIs src p.ver p.src ∧ AddrIs dst p.ver p.dst := by
  cases ha : addrStatement v src dst with
  | none =>
    rw [ha] at hn
    simp only [Option.isNone_none, Bool.true_and, Bool.or_eq_false_iff, Bool.not_eq_false', List.isEmpty_iff] at hn
    exact ⟨.inl hn.1, .inl hn.2⟩
  | some a =>
    rw [ha] at h
    obtain ⟨h0, h1, h2⟩ := Flat.ifSet_some.1 h
    have hav := addr_ver ha
    rw [hav] at h0
    subst h0
    unfold addrStatement at ha
    dsimp only at ha
    unfold InSet at h1 h2
    unfold AddrIs
    by_cases hs : src = [] <;> by_cases hd : dst = []
    · exact ⟨.inl hs, .inl hd⟩
    · simp only [hs, List.isEmpty_nil, List.isEmpty_eq_false_iff.2 hd] at ha
      simp only [Bool.not_true, Bool.not_false, Bool.and_true, Bool.false_eq_true, if_false, if_true] at ha
      split at ha
      next hf =>
        cases ha
        exact ⟨.inl hs, .inr ((inSet_filter wd _ _).1 (h2.resolve_left (by simpa using hf)))⟩
      next => cases ha
    · simp only [hd, List.isEmpty_nil, List.isEmpty_eq_false_iff.2 hs] at ha
      simp only [Bool.not_true, Bool.not_false, Bool.and_false, Bool.false_eq_true, if_false, if_true] at ha
      split at ha
      next hf =>
        cases ha
        exact ⟨.inr ((inSet_filter ws _ _).1 (h1.resolve_left (by simpa using hf))), .inl hd⟩
      next => cases ha
    · simp only [List.isEmpty_eq_false_iff.2 hs, List.isEmpty_eq_false_iff.2 hd, Bool.not_false, Bool.and_self, if_true] at ha
      split at ha
      next hf =>
        cases ha
        simp only [Bool.and_eq_true, Bool.not_eq_true', List.isEmpty_eq_false_iff] at hf
        exact ⟨.inr ((inSet_filter ws _ _).1 (h1.resolve_left hf.1)), .inr ((inSet_filter wd _ _).1 (h2.resolve_left hf.2))⟩
      next => cases ha

/-! ### protocols, ports and types -/

theorem protoIs_iff {s : String} (h : ∃ k, (s, k) ∈ iana ∧ (s, k) ∈ protoNumbers) {p : Packet} : ProtoIs s p ↔ p.proto = s := by
  have k1 : ∀ a ∈ iana, ∀ b ∈ iana, a.2 = b.2 → a.1 = b.1 := by decide
  have k2 : ∀ a ∈ protoNumbers, ∀ b ∈ protoNumbers, a.1 = b.1 → a.2 = b.2 := by decide
  obtain ⟨k, h1, h2⟩ := h
  unfold ProtoIs Flat.NumberIs
  constructor
  · rintro ⟨e, he, rfl, n, hn, h3⟩
    have h3 : e.2 = n := by exact_mod_cast h3
    have : e.2 = k := k2 e he (e.1, k) h2 rfl
    exact k1 (p.proto, n) hn (e.1, k) h1 (h3.symm.trans this)
  · rintro rfl
    exact ⟨(p.proto, k), h2, rfl, k, h1, rfl⟩

instance typeIsDec (v : Ver) (s : String) (k : Nat) : Decidable (TypeIs v s k) := by unfold TypeIs; infer_instance

theorem type_four : ∀ s ∈ icmpV4.map Prod.fst, ∀ e ∈ icmpNumbers .v4,
    TypeIs .v4 ((remap4.lookup s).getD s) e.2 ↔ e.1 = s := by decide +kernel

theorem type_six : ∀ s ∈ icmpV6.map Prod.fst, ∀ e ∈ icmpNumbers .v6,
    TypeIs .v6 ((remap6.lookup s).getD s) e.2 ↔ e.1 = s := by decide +kernel

theorem remap_six : ∀ s ∈ icmpV6.map Prod.fst, (remap4.lookup s).getD s = s := by decide +kernel

theorem types_iff {v : Ver} {types : List String} (h : ∀ s ∈ types, s ∈ (icmpNumbers v).map Prod.fst) {p : Packet} :
    (∃ s ∈ mapTypes v types, ∃ e ∈ icmpNumbers v, e.1 = p.icmpType ∧ TypeIs v s e.2) ↔ p.icmpType ∈ types := by
  have key : ∀ s ∈ types, ∀ e ∈ icmpNumbers v, TypeIs v (((if v = .v4 then remap4 else remap6).lookup s).getD s) e.2 ↔ e.1 = s := by
    intro s hs e he
    cases v with
    | v4 => exact type_four s (h s hs) e he
    | v6 => exact type_six s (h s hs) e he
  unfold mapTypes
  constructor
  · rintro ⟨s, hs, e, he, h1, h2⟩
    obtain ⟨u, hu, rfl⟩ := List.mem_map.1 hs
    rw [← h1, (key u hu e he).1 h2]
    exact hu
  · intro hm
    obtain ⟨e, he, h1⟩ := List.mem_map.1 (h _ hm)
    exact ⟨_, List.mem_map.2 ⟨_, hm, rfl⟩, e, he, h1, (key _ hm e he).2 h1⟩

/-- The condition of the term on protocol, ports and types. -/
def DetailIs (t : Term) (p : Packet) : Prop :=
  OneOf t.protocol p.proto ∧ (PortMatch t.sourcePort p.sport ∧ PortMatch t.destinationPort p.dport) ∧ OneOf t.icmpType p.icmpType

/-- One of the statements matches, or there is none. -/
def SomeStmt (ss : List Stmt) (p : Packet) : Prop := ss = [] ∨ ∃ s ∈ ss, StmtHits s p

/-- What statements need of a packet. -/
structure NftPacket (p : Packet) : Prop where
  proto : p.proto ∈ iana.map Prod.fst
  icmp4 : p.ver = .v4 → p.proto ≠ "icmpv6"
  icmp6 : p.ver = .v6 → p.proto ≠ "icmp"

/-- The parts of `NftFits` that statements depend on. -/
structure StmtFits (t : Term) : Prop where
  protos : ∀ s ∈ t.protocol, ∃ k, (s, k) ∈ iana ∧ (s, k) ∈ protoNumbers
  ports : t.sourcePort ≠ [] ∨ t.destinationPort ≠ [] → t.protocol ≠ [] ∧
    (t.protocol.length = 1 ∨ (t.sourcePort ≠ [] ∧ t.destinationPort ≠ []))
  types : t.icmpType ≠ [] → (t.protocol = ["icmp"] ∧ ∀ s ∈ t.icmpType, s ∈ icmpV4.map Prod.fst) ∨
    (t.protocol = ["icmpv6"] ∧ ∀ s ∈ t.icmpType, s ∈ icmpV6.map Prod.fst)
  noports : t.icmpType ≠ [] → t.sourcePort = [] ∧ t.destinationPort = []

theorem skipped_iff {v : Ver} {l : List String} (h : skipped v l = false) : otherIcmp v ∉ l := by
  unfold skipped at h
  unfold otherIcmp
  cases v <;> simp at h ⊢ <;> exact h.1

theorem own_number {v : Ver} {p : Packet} (hp : NftPacket p) : Flat.NumberIs p (if v = .v4 then 1 else 58) ↔ p.proto = ownIcmp v := by
  have k1 : ∀ a ∈ iana, (a.2 = 1 ↔ a.1 = "icmp") ∧ (a.2 = 58 ↔ a.1 = "icmpv6") := by decide
  obtain ⟨e, he, h1⟩ := List.mem_map.1 hp.proto
  unfold Flat.NumberIs ownIcmp
  constructor
  · rintro ⟨k, hk, h2⟩
    cases v
    · have h2 : k = 1 := by simp at h2; omega
      exact (k1 _ hk).1.1 h2
    · have h2 : k = 58 := by simp at h2; omega
      exact (k1 _ hk).2.1 h2
  · intro h
    refine ⟨e.2, by rw [← h1]; exact he, ?_⟩
    cases v
    · have := (k1 _ he).1.2 (h1.trans h)
      simp [this]
    · have := (k1 _ he).2.2 (h1.trans h)
      simp [this]

/-- The statements of a term with ICMP types. -/
theorem stmts_types {v : Ver} {t : Term} (f : StmtFits t) (hi : t.icmpType ≠ []) (hs : skipped v t.protocol = false)
    {types : List String} (ht : mapTypes v types = mapTypes v t.icmpType) :
    t.protocol = [ownIcmp v] ∧ (∀ s ∈ t.icmpType, s ∈ (icmpNumbers v).map Prod.fst) ∧
    statements v t (mapTypes v types) = [.icmp v (mapTypes v t.icmpType)] := by
  have hp : t.protocol = [ownIcmp v] ∧ ∀ s ∈ t.icmpType, s ∈ (icmpNumbers v).map Prod.fst := by
    have := skipped_iff hs
    rcases f.types hi with ⟨h1, h2⟩ | ⟨h1, h2⟩
    · cases v
      · exact ⟨h1, h2⟩
      · rw [h1] at this
        exact absurd (by simp [otherIcmp]) this
    · cases v
      · rw [h1] at this
        exact absurd (by simp [otherIcmp]) this
      · exact ⟨h1, h2⟩
  refine ⟨hp.1, hp.2, ?_⟩
  have hm : (mapTypes v t.icmpType).isEmpty = false := by
    rw [List.isEmpty_eq_false_iff]
    unfold mapTypes
    simpa using hi
  unfold statements
  rw [ht, hm, hp.1]
  simp [protoStmts]

theorem stmts_iff {v : Ver} {t : Term} (f : StmtFits t) (hs : skipped v t.protocol = false) {types : List String}
    (ht : mapTypes v types = mapTypes v t.icmpType) {p : Packet} (hp : NftPacket p) :
    (SomeStmt (statements v t (mapTypes v types)) p → DetailIs t p) ∧
    (p.ver = v → DetailIs t p → SomeStmt (statements v t (mapTypes v types)) p) := by
  by_cases hi : t.icmpType = []
  · have e1 : mapTypes v types = [] := by rw [ht, hi]; rfl
    have e2 : t.protocol.erase (otherIcmp v) = t.protocol := List.erase_of_not_mem (skipped_iff hs)
    unfold statements
    rw [e1, e2]
    simp only [List.isEmpty_nil, Bool.not_true, Bool.false_and, Bool.false_eq_true, if_false]
    unfold protoStmts SomeStmt DetailIs
    rw [hi]
    by_cases h0 : t.protocol = []
    · have hq : t.sourcePort = [] ∧ t.destinationPort = [] := by
        constructor <;> refine Classical.byContradiction fun h => ?_
        · exact (f.ports (.inl h)).1 h0
        · exact (f.ports (.inr h)).1 h0
      simp [h0, hq.1, hq.2, OneOf, PortMatch]
    · rw [if_neg (by simpa using h0)]
      have pi := fun s (h : s ∈ t.protocol) => protoIs_iff (p := p) (f.protos s h)
      split
      next hc =>
        simp only [Bool.and_eq_true, decide_eq_true_eq, Bool.not_eq_true', Bool.and_eq_false_iff, Bool.not_eq_false', List.isEmpty_iff] at hc
        have hq : t.sourcePort = [] ∧ t.destinationPort = [] := by
          refine Classical.byContradiction fun h => ?_
          have h' : t.sourcePort ≠ [] ∨ t.destinationPort ≠ [] := by
            by_cases h1 : t.sourcePort = []
            · exact .inr fun h2 => h ⟨h1, h2⟩
            · exact .inl h1
          rcases (f.ports h').2 with h3 | h3
          · omega
          · exact hc.2.elim h3.1 h3.2
        rw [hq.1, hq.2]
        constructor
        · rintro (h | ⟨s, hm, h⟩)
          · cases h
          · obtain rfl := List.mem_singleton.1 hm
            obtain ⟨_, u, hu, h⟩ := h
            exact ⟨.inr (((pi u hu).1 h) ▸ hu), ⟨.inl rfl, .inl rfl⟩, .inl rfl⟩
        · rintro hv ⟨h, _⟩
          exact .inr ⟨_, List.mem_singleton.2 rfl, fun h => hv.trans h, p.proto, h.resolve_left h0,
            (pi _ (h.resolve_left h0)).2 rfl⟩
      next =>
        by_cases hq : t.sourcePort = [] ∧ t.destinationPort = []
        · rw [hq.1, hq.2]
          simp only [List.isEmpty_nil, Bool.not_true, Bool.or_self, Bool.false_eq_true, if_false]
          constructor
          · rintro (h | ⟨s, hm, h⟩)
            · exact absurd (List.map_eq_nil_iff.1 h) h0
            · obtain ⟨u, hu, rfl⟩ := List.mem_map.1 hm
              obtain ⟨_, u', hu', h⟩ := h
              obtain rfl := List.mem_singleton.1 hu'
              exact ⟨.inr (((pi _ hu).1 h) ▸ hu), ⟨.inl rfl, .inl rfl⟩, .inl rfl⟩
          · rintro hv ⟨h, _⟩
            have h := h.resolve_left h0
            exact .inr ⟨_, List.mem_map.2 ⟨_, h, rfl⟩, fun h => hv.trans h, p.proto, by simp, (pi _ h).2 rfl⟩
        · have hq' : (!t.sourcePort.isEmpty || !t.destinationPort.isEmpty) = true := by
            simp only [Bool.or_eq_true, Bool.not_eq_true', List.isEmpty_eq_false_iff]
            by_cases h1 : t.sourcePort = []
            · exact .inr fun h2 => hq ⟨h1, h2⟩
            · exact .inl h1
          simp only [hq', if_true]
          constructor
          · rintro (h | ⟨s, hm, h⟩)
            · exact absurd (List.map_eq_nil_iff.1 h) h0
            · obtain ⟨u, hu, rfl⟩ := List.mem_map.1 hm
              obtain ⟨h1, h2⟩ := h
              exact ⟨.inr (((pi _ hu).1 h1) ▸ hu), h2, .inl rfl⟩
          · rintro hv ⟨h, h2, _⟩
            have h := h.resolve_left h0
            exact .inr ⟨_, List.mem_map.2 ⟨_, h, rfl⟩, (pi _ h).2 rfl, h2⟩
  · obtain ⟨h1, h2, h3⟩ := stmts_types f hi hs ht
    obtain ⟨q1, q2⟩ := f.noports hi
    rw [h3]
    unfold SomeStmt DetailIs
    rw [h1, q1, q2]
    constructor
    · rintro (h | ⟨s, hm, h⟩)
      · cases h
      · obtain rfl := List.mem_singleton.1 hm
        obtain ⟨_, h4, h5⟩ := h
        exact ⟨.inr (by rw [(own_number hp).1 h4]; simp), ⟨.inl rfl, .inl rfl⟩, .inr ((types_iff h2).1 h5)⟩
    · rintro hv ⟨h4, _, h5⟩
      have h4 : p.proto = ownIcmp v := by simpa [OneOf] using h4
      exact .inr ⟨_, List.mem_singleton.2 rfl, hv, (own_number hp).2 h4, (types_iff h2).2 (h5.resolve_left hi)⟩

/-! ### rules -/

/-- The condition of a rule on the interface. -/
def IfaceIs (i : Option (Bool × String)) (p : Packet) : Prop :=
  Flat.IfSet i fun i => (if i.1 then p.inInterface else p.outInterface) = i.2

theorem iface_iff {t : Term} (h : (t.sourceInterface.isSome && t.destinationInterface.isSome) = false) (p : Packet) :
    IfaceIs (interface t) p ↔ (t.sourceInterface = none ∨ t.sourceInterface = some p.inInterface) ∧
      (t.destinationInterface = none ∨ t.destinationInterface = some p.outInterface) := by
  unfold IfaceIs interface
  cases h1 : t.sourceInterface <;> cases h2 : t.destinationInterface <;> simp [h1, h2] at h ⊢
  · exact Flat.ifSet_none
  · rw [Flat.ifSet_some]
    simp [eq_comm]
  · rw [Flat.ifSet_some]
    simp [eq_comm]

theorem decorate_mem {i : Option (Bool × String)} {c : Option Str} {rs out : List Rule} (h : decorate i c rs = .ok out)
    (hn : ∀ r ∈ rs, r.iface = none) (h1 : i = none ∨ rs.length ≤ 1) :
    (∀ r ∈ out, ∃ r0 ∈ rs, ∃ d, r = { r0 with iface := i, comment := d }) ∧
    ∀ r0 ∈ rs, ∃ d, { r0 with iface := i, comment := d } ∈ out := by
  cases rs with
  | nil =>
    have h : (if i.isSome || c.isSome then Except.error Err.indexError else .ok []) = .ok out := h
    split at h
    · cases h
    · cases h
      simp
  | cons r rs =>
    cases h
    rcases h1 with rfl | h1
    · have key : ∀ q ∈ rs, q = { q with iface := none, comment := q.comment } := by
        intro q hq
        have := hn q (List.mem_cons_of_mem _ hq)
        cases q
        simp_all
      constructor
      · intro q hq
        rcases List.mem_cons.1 hq with rfl | hq
        · exact ⟨r, by simp, c, rfl⟩
        · exact ⟨q, List.mem_cons_of_mem _ hq, q.comment, key q hq⟩
      · intro q hq
        rcases List.mem_cons.1 hq with rfl | hq
        · exact ⟨c, by simp⟩
        · exact ⟨q.comment, List.mem_cons_of_mem _ (by rw [← key q hq]; exact hq)⟩
    · have hr : rs = [] := by
        cases rs with
        | nil => rfl
        | cons => simp at h1
      subst hr
      simp only [List.mem_singleton, forall_eq]
      exact ⟨⟨r, rfl, c, rfl⟩, c, rfl⟩

/-- A rule that is only options and verdict. -/
def PlainRule (r : Rule) : Prop := r.iface = none ∧ r.addrs = none ∧ r.stmt = none

theorem group_hits {i : Option (Bool × String)} {c : Option Str} {a : Option Addrs} {ss : List Stmt} {r : Rule}
    {out : List Rule} (h : group i c a ss r = .ok out) (hp : PlainRule r) (hg : ∀ b, a = some b → ∀ s ∈ ss, goes b s = true)
    (h1 : i = none ∨ ss.length ≤ 1) (f : Flow) :
    ((∃ q ∈ out, RuleHits q f) ↔ IfaceIs i f.packet ∧ Flat.IfSet a (AddrsHit · f.packet) ∧ SomeStmt ss f.packet ∧
      (r.new = true → f.state = "new")) ∧ ∀ q ∈ out, q.verdict = r.verdict := by
  obtain ⟨p1, p2, p3⟩ := hp
  have key : ∃ rs, decorate i c rs = .ok out ∧ (ss = [] → rs = [{ r with addrs := a }]) ∧
      (ss ≠ [] → rs = ss.map fun s => { r with addrs := a, stmt := some s }) := by
    refine ⟨_, h, ?_, ?_⟩
    · rintro rfl
      cases a with
      | none =>
        cases r
        simp_all
      | some a => simp
    · intro hs
      have e : ss.isEmpty = false := List.isEmpty_eq_false_iff.2 hs
      cases a with
      | none =>
        simp only [e, Bool.false_eq_true, if_false]
        cases r
        simp_all
      | some a =>
        simp only [e, Bool.false_eq_true, if_false]
        rw [List.filter_eq_self.2 (hg a rfl)]
  obtain ⟨rs, hd, k1, k2⟩ := key
  have hrs : ∀ q, q ∈ rs ↔ (ss = [] ∧ q = { r with addrs := a }) ∨ ∃ s ∈ ss, q = { r with addrs := a, stmt := some s } := by
    intro q
    by_cases hs : ss = []
    · rw [k1 hs, hs]
      simp
    · rw [k2 hs]
      simp [hs, eq_comm]
  have hlen : i = none ∨ rs.length ≤ 1 := by
    refine h1.imp_right fun h => ?_
    by_cases hs : ss = []
    · rw [k1 hs]; simp
    · rw [k2 hs, List.length_map]; exact h
  have hn : ∀ q ∈ rs, q.iface = none := by
    intro q hq
    rcases (hrs q).1 hq with ⟨_, rfl⟩ | ⟨s, _, rfl⟩ <;> exact p1
  obtain ⟨m1, m2⟩ := decorate_mem hd hn hlen
  constructor
  · constructor
    · rintro ⟨q, hq, h2, h3, h4, h5⟩
      obtain ⟨r0, hr, d, rfl⟩ := m1 q hq
      refine ⟨h2, ?_⟩
      rcases (hrs r0).1 hr with ⟨hs, rfl⟩ | ⟨s, hs, rfl⟩
      · exact ⟨h3, .inl hs, h5⟩
      · exact ⟨h3, .inr ⟨s, hs, h4 s rfl⟩, h5⟩
    · rintro ⟨h2, h3, h4, h5⟩
      rcases h4 with h4 | ⟨s, hs, h4⟩
      · obtain ⟨d, hd⟩ := m2 _ ((hrs _).2 (.inl ⟨h4, rfl⟩))
        exact ⟨_, hd, h2, h3, by rw [show ({ r with addrs := a } : Rule).stmt = none from p3]; exact Flat.ifSet_none, h5⟩
      · obtain ⟨d, hd⟩ := m2 _ ((hrs _).2 (.inr ⟨s, hs, rfl⟩))
        exact ⟨_, hd, h2, h3, Flat.ifSet_some.2 h4, h5⟩
  · intro q hq
    obtain ⟨r0, hr, d, rfl⟩ := m1 q hq
    rcases (hrs r0).1 hr with ⟨_, rfl⟩ | ⟨s, _, rfl⟩ <;> rfl

theorem stmts_shape {v : Ver} {t : Term} {types : List String} {s : Stmt} (h : s ∈ statements v t types) :
    ∀ w l, s = .icmp w l → w = v := by
  rintro w l rfl
  have key : ∀ {l' : List String}, Stmt.icmp w l ∉ protoStmts v l' t.sourcePort t.destinationPort := by
    intro l' h
    unfold protoStmts at h
    split at h
    · cases h
    · split at h
      · simp at h
      · obtain ⟨x, _, h⟩ := List.mem_map.1 h
        split at h <;> cases h
  unfold statements at h
  split at h
  · rcases List.mem_cons.1 h with h | h
    · cases h; rfl
    · exact absurd h key
  · exact absurd h key

theorem stmts_go {v : Ver} {t : Term} {types : List String} {a : Addrs} (ha : a.ver = v) :
    ∀ s ∈ statements v t types, goes a s = true := by
  intro s hs
  have key := stmts_shape hs
  subst ha
  unfold goes
  cases hv : a.ver with
  | v4 => simp
  | v6 =>
    cases s with
    | icmp w l => rw [key w l rfl, hv]; simp
    | protos => simp
    | ports => simp

theorem stmts_length {v : Ver} {t : Term} (f : StmtFits t) (hs : skipped v t.protocol = false) {types : List String}
    (ht : mapTypes v types = mapTypes v t.icmpType)
    (hi : t.protocol.length ≤ 1 ∨ (t.sourcePort = [] ∧ t.destinationPort = [])) :
    (statements v t (mapTypes v types)).length ≤ 1 := by
  by_cases h0 : t.icmpType = []
  · have e1 : mapTypes v types = [] := by rw [ht, h0]; rfl
    have e2 : t.protocol.erase (otherIcmp v) = t.protocol := List.erase_of_not_mem (skipped_iff hs)
    unfold statements
    rw [e1, e2]
    simp only [List.isEmpty_nil, Bool.not_true, Bool.false_and, Bool.false_eq_true, if_false]
    unfold protoStmts
    split
    · simp
    · split
      · simp
      next hc =>
        rw [List.length_map]
        rcases hi with hi | ⟨h1, h2⟩
        · exact hi
        · rw [h1, h2] at hc
          simp at hc
          omega
  · rw [(stmts_types f h0 hs ht).2.2]
    simp

/-! ### one family -/

/-- What the loop over families adds for a family. -/
def block (iface : Option (Bool × String)) (comment : Option Str) (t : Term) (r : Rule) (v : Ver) (types : List String) :
    Except Err (List Rule) :=
  if (addrStatement v t.sourceAddress t.destinationAddress).isNone && (!t.sourceAddress.isEmpty || !t.destinationAddress.isEmpty)
  then .ok []
  else if skipped v t.protocol then .ok []
  else group iface comment (addrStatement v t.sourceAddress t.destinationAddress) (statements v t (mapTypes v types)) r

theorem nft_loop_cons {i : Option (Bool × String)} {c : Option Str} {t : Term} {r : Rule} {v : Ver} {vs : List Ver}
    {types : List String} {out : List Rule} (h : famLoop i c t r (v :: vs) types = .ok out) :
    ∃ a b types', block i c t r v types = .ok a ∧ famLoop i c t r vs types' = .ok b ∧ out = a ++ b ∧
      (types' = types ∨ types' = mapTypes v types) := by
  unfold famLoop at h
  unfold block
  dsimp only at h
  split at h
  next h1 =>
    rw [if_pos h1]
    exact ⟨[], out, types, rfl, h, rfl, .inl rfl⟩
  next h1 =>
    rw [if_neg h1]
    split at h
    next h2 =>
      rw [if_pos h2]
      exact ⟨[], out, _, rfl, h, rfl, .inr rfl⟩
    next h2 =>
      rw [if_neg h2]
      obtain ⟨a, h3, h⟩ := bind_ok h
      obtain ⟨b, h4, h⟩ := bind_ok h
      exact ⟨a, b, _, h3, h4, (Except.ok.inj h).symm, .inr rfl⟩

/-- The condition of the term, its exclusions being taken out. -/
def TermIs (t : Term) (i : Option (Bool × String)) (p : Packet) : Prop :=
  (AddrIs t.sourceAddress p.ver p.src ∧ AddrIs t.destinationAddress p.ver p.dst) ∧ DetailIs t p ∧ IfaceIs i p

/-- The parts of `NftFits` that rules depend on. -/
structure RuleFits (fam : Ver → Prop) (t : Term) (i : Option (Bool × String)) : Prop where
  stmt : StmtFits t
  src : ∀ n ∈ t.sourceAddress, WF n
  dst : ∀ n ∈ t.destinationAddress, WF n
  iface : i ≠ none → t.protocol.length ≤ 1 ∨ (t.sourcePort = [] ∧ t.destinationPort = [])
  four : fam .v4 → "icmpv6" ∈ t.protocol → ∀ s ∈ t.protocol, s = "icmpv6"
  six : fam .v6 → "icmp" ∈ t.protocol → ∀ s ∈ t.protocol, s = "icmp"

theorem skipped_none {fam : Ver → Prop} {t : Term} {i : Option (Bool × String)} (f : RuleFits fam t i) {v : Ver} (hv : fam v)
    (hs : skipped v t.protocol = true) {p : Packet} (hp : NftPacket p) (hpv : p.ver = v) : ¬ DetailIs t p := by
  rintro ⟨h, _⟩
  have h6 : "icmp6" ∉ t.protocol := by
    intro h
    obtain ⟨k, h, _⟩ := f.stmt.protos _ h
    have : "icmp6" ∉ iana.map Prod.fst := by decide
    exact this (List.mem_map.2 ⟨_, h, rfl⟩)
  unfold skipped at hs
  cases v with
  | v4 =>
    simp [h6] at hs
    have h := h.resolve_left (fun e => by rw [e] at hs; cases hs)
    exact hp.icmp4 hpv (f.four hv hs _ h)
  | v6 =>
    simp [h6] at hs
    have h := h.resolve_left (fun e => by rw [e] at hs; cases hs)
    exact hp.icmp6 hpv (f.six hv hs _ h)

theorem block_iff {fam : Ver → Prop} {i : Option (Bool × String)} {c : Option Str} {t : Term} {r : Rule} {v : Ver}
    {types : List String} {out : List Rule} (f : RuleFits fam t i) (hv : fam v) (hr : PlainRule r)
    (ht : skipped v t.protocol = false → mapTypes v types = mapTypes v t.icmpType) (h : block i c t r v types = .ok out)
    {fl : Flow} (hp : NftPacket fl.packet) :
    ((∃ q ∈ out, RuleHits q fl) → TermIs t i fl.packet ∧ (r.new = true → fl.state = "new")) ∧
    (fl.packet.ver = v → TermIs t i fl.packet → (r.new = true → fl.state = "new") → ∃ q ∈ out, RuleHits q fl) ∧
    ∀ q ∈ out, q.verdict = r.verdict := by
  unfold block at h
  split at h
  next h1 =>
    cases h
    refine ⟨by simp, ?_, by simp⟩
    rintro hpv ⟨⟨a1, a2⟩, _⟩ _
    have := (addr_complete f.src f.dst hpv a1 a2).1
    rw [h1] at this
    cases this
  next h1 =>
    split at h
    next h2 =>
      cases h
      exact ⟨by simp, fun hpv h _ => absurd h.2.1 (skipped_none f hv h2 hp hpv), by simp⟩
    next h2 =>
      have h1 : (_ && _) = false := Bool.eq_false_iff.2 h1
      have h2 : skipped v t.protocol = false := Bool.eq_false_iff.2 h2
      have hlen : i = none ∨ (statements v t (mapTypes v types)).length ≤ 1 := by
        by_cases hi : i = none
        · exact .inl hi
        · exact .inr (stmts_length f.stmt h2 (ht h2) (f.iface hi))
      obtain ⟨g1, g2⟩ := group_hits h hr (fun b hb => stmts_go (addr_ver hb)) hlen fl
      obtain ⟨s1, s2⟩ := stmts_iff f.stmt h2 (ht h2) hp
      refine ⟨?_, ?_, g2⟩
      · intro hx
        obtain ⟨e1, e2, e3, e4⟩ := g1.1 hx
        exact ⟨⟨addr_sound f.src f.dst h1 e2, s1 e3, e1⟩, e4⟩
      · rintro hpv ⟨⟨a1, a2⟩, d, e⟩ hn
        exact g1.2 ⟨e, (addr_complete f.src f.dst hpv a1 a2).2, s2 hpv d, hn⟩

/-! ### one term -/

theorem sixTypes {types : List String} (h : ∀ s ∈ types, s ∈ icmpV6.map Prod.fst) : mapTypes .v4 types = types := by
  unfold mapTypes
  simp only [if_true]
  conv => rhs; rw [← List.map_id types]
  exact List.map_congr_left fun s hs => remap_six s (h s hs)

theorem families_fam {af : String} {v : Ver} (h : Sees af v) (haf : af ∈ ["ip", "ip6", "inet"]) : v ∈ families af := by
  unfold families
  simp only [List.mem_cons, List.not_mem_nil, or_false] at haf
  rcases haf with rfl | rfl | rfl <;> cases v <;> simp [Sees] at h ⊢

theorem fam_families {af : String} {v : Ver} (h : v ∈ families af) (haf : af ∈ ["ip", "ip6", "inet"]) : Sees af v := by
  unfold families at h
  simp only [List.mem_cons, List.not_mem_nil, or_false] at haf
  rcases haf with rfl | rfl | rfl <;> cases v <;> simp [Sees] at h ⊢

theorem famLoop_iff {i : Option (Bool × String)} {c : Option Str} {t : Term} {r : Rule} {af : String}
    (haf : af ∈ ["ip", "ip6", "inet"]) {out : List Rule} (f : RuleFits (Sees af) t i) (hr : PlainRule r)
    (h : famLoop i c t r (families af) t.icmpType = .ok out) {fl : Flow} (hp : NftPacket fl.packet)
    (hv : Sees af fl.packet.ver) :
    ((∃ q ∈ out, RuleHits q fl) ↔ TermIs t i fl.packet ∧ (r.new = true → fl.state = "new")) ∧
    ∀ q ∈ out, q.verdict = r.verdict := by
  have one : ∀ v, families af = [v] → ((∃ q ∈ out, RuleHits q fl) ↔ TermIs t i fl.packet ∧ (r.new = true → fl.state = "new")) ∧
      ∀ q ∈ out, q.verdict = r.verdict := by
    intro v hf
    rw [hf] at h
    obtain ⟨a, b, ty, h1, h2, rfl, _⟩ := nft_loop_cons h
    cases h2
    have hm := families_fam hv haf
    rw [hf] at hm
    obtain ⟨b1, b2, b3⟩ := block_iff f (fam_families (by rw [hf]; simp) haf) hr (fun _ => rfl) h1 hp
    rw [List.append_nil]
    exact ⟨⟨b1, fun ⟨x, y⟩ => b2 (List.mem_singleton.1 hm) x y⟩, b3⟩
  by_cases hf : af = "inet"
  · subst hf
    rw [show families "inet" = [.v4, .v6] from rfl] at h
    obtain ⟨a, b, ty, h1, h2, rfl, hty⟩ := nft_loop_cons h
    obtain ⟨a', b', ty', h3, h4, rfl, _⟩ := nft_loop_cons h2
    cases h4
    rw [List.append_nil]
    have hs : ∀ v, Sees "inet" v := fun v => .inr (.inr (.inl rfl))
    obtain ⟨b1, b2, b3⟩ := block_iff f (hs .v4) hr (fun _ => rfl) h1 hp
    have ht : skipped .v6 t.protocol = false → mapTypes .v6 ty = mapTypes .v6 t.icmpType := by
      intro hk
      rcases hty with rfl | rfl
      · rfl
      · by_cases hi : t.icmpType = []
        · rw [hi]; rfl
        · rw [sixTypes (stmts_types f.stmt hi hk rfl).2.1]
    obtain ⟨c1, c2, c3⟩ := block_iff f (hs .v6) hr ht h3 hp
    refine ⟨⟨?_, ?_⟩, ?_⟩
    · rintro ⟨q, hq, hh⟩
      rcases List.mem_append.1 hq with hq | hq
      · exact b1 ⟨q, hq, hh⟩
      · exact c1 ⟨q, hq, hh⟩
    · rintro ⟨x, y⟩
      cases hpv : fl.packet.ver with
      | v4 =>
        obtain ⟨q, hq, hh⟩ := b2 hpv x y
        exact ⟨q, List.mem_append_left _ hq, hh⟩
      | v6 =>
        obtain ⟨q, hq, hh⟩ := c2 hpv x y
        exact ⟨q, List.mem_append_right _ hq, hh⟩
    · intro q hq
      rcases List.mem_append.1 hq with hq | hq
      · exact b3 q hq
      · exact c3 q hq
  · simp only [List.mem_cons, List.not_mem_nil, or_false] at haf
    rcases haf with rfl | rfl | rfl
    · exact one .v4 rfl
    · exact one .v6 rfl
    · exact absurd rfl hf

theorem excluded_shape {t t' : Term} (h : withoutExcluded t = .ok t') : ∃ s d,
    removeAll t.sourceAddress t.sourceAddressExclude = .ok s ∧
    removeAll t.destinationAddress t.destinationAddressExclude = .ok d ∧
    t' = { t with sourceAddress := s, destinationAddress := d } := by
  unfold withoutExcluded at h
  obtain ⟨s, h1, h⟩ := bind_ok h
  obtain ⟨d, h2, h⟩ := bind_ok h
  exact ⟨s, d, h1, h2, (Except.ok.inj h).symm⟩

theorem verdict_of {l : List String} {w : String} (hl : l = [w]) (hw : w ∈ ["accept", "deny", "reject"]) {v : String}
    (h : Nftables.verdict l = .ok v) : ∀ u, (w, u) ∈ verdicts ↔ u = v := by
  subst hl
  simp only [List.mem_cons, List.not_mem_nil, or_false] at hw
  rcases hw with rfl | rfl | rfl <;>
    (simp [Nftables.verdict, actions, List.lookup] at h; subst h; intro u; simp [verdicts])

theorem term_iff {af : String} (haf : af ∈ ["ip", "ip6", "inet"]) {verbose : Bool} {g : NTerm} (f : NftFits (Sees af) g)
    (hl : Live g) (hi : (g.term.sourceInterface.isSome && g.term.destinationInterface.isSome) = false) {t : Term}
    (ht : withoutExcluded g.term = .ok t) {rs : List Rule} (h : ruleset af verbose { g with term := t } = .ok rs) {fl : Flow}
    (hp : NftPacket fl.packet) (hv : Sees af fl.packet.ver) (v : String) :
    (∃ r ∈ rs, RuleHits r fl ∧ r.verdict = v) ↔ Wants fl g v := by
  obtain ⟨s, d, h1, h2, rfl⟩ := excluded_shape ht
  unfold ruleset at h
  obtain ⟨vd, h3, h⟩ := bind_ok h
  obtain ⟨out, h4, h⟩ := bind_ok h
  cases h
  have un := fun (s : String) {v : Val} => unset (g := Nftables.tables) nft_tables rfl (nft_active hl) f.keywords s (v := v)
  have hvb : g.term.verbatim = [] := Cisco.listVal_falsy (un "verbatim" (by simp [attrsOf]) (by decide))
  have noports : g.term.icmpType ≠ [] → g.term.sourcePort = [] ∧ g.term.destinationPort = [] := by
    intro hi
    have key : ¬ (g.term.sourcePort ≠ [] ∨ g.term.destinationPort ≠ []) := by
      intro hq
      rcases f.types hi with ⟨e, _⟩ | ⟨e, _⟩
      · have := sane_ports f.sane hvb hq (s := "icmp") (by rw [e]; simp)
        exact absurd this (by decide)
      · have := sane_ports f.sane hvb hq (s := "icmpv6") (by rw [e]; simp)
        exact absurd this (by decide)
    exact ⟨Classical.byContradiction fun h => key (.inl h), Classical.byContradiction fun h => key (.inr h)⟩
  obtain ⟨ws, wse⟩ := addrMatch_wf f.src
  obtain ⟨wd, wde⟩ := addrMatch_wf f.dst
  have rf : RuleFits (Sees af) { g.term with sourceAddress := s, destinationAddress := d } (interface g.term) := {
    stmt := ⟨f.protos, f.ports, f.types, noports⟩
    src := (removeAll_spec ws wse h1).1
    dst := (removeAll_spec wd wde h2).1
    iface := by
      intro hn
      refine f.iface ?_
      unfold interface at hn
      split at hn
      next h => exact .inl (by rw [h]; simp)
      next h => exact .inr (by rw [h]; simp)
      next => exact absurd rfl hn
    four := f.four
    six := f.six }
  obtain ⟨k1, k2⟩ := famLoop_iff haf rf ⟨rfl, rfl, rfl⟩ h4 hp hv
  obtain ⟨w, hw, hact⟩ := f.action
  have hvd := verdict_of hact hw h3
  have hm : TermIs { g.term with sourceAddress := s, destinationAddress := d } (interface g.term) fl.packet ↔
      Matches g.term fl.packet := by
    rw [nft_matches f hl, ← iface_iff hi]
    unfold TermIs
    rw [← removed_iff f.src f.srcLeft h1, ← removed_iff f.dst f.dstLeft h2]
    exact Iff.rfl
  have hnew : ((!g.term.action.contains "deny" && !g.term.action.contains "reject" && g.term.icmpType.isEmpty) = true →
      fl.state = "new") ↔ (vd = "accept" → fl.state = "new" ∨ g.term.icmpType ≠ []) := by
    have hva : vd = "accept" ↔ w = "accept" := by
      have := (hvd vd).2 rfl
      simp only [verdicts, List.mem_cons, List.not_mem_nil, or_false, Prod.mk.injEq] at this
      rcases this with ⟨rfl, rfl⟩ | ⟨rfl, rfl⟩ | ⟨rfl, rfl⟩ <;> decide
    rw [hva, hact]
    simp only [List.mem_cons, List.not_mem_nil, or_false] at hw
    rcases hw with rfl | rfl | rfl
    · by_cases hi : g.term.icmpType = [] <;> simp [hi]
    · simp
    · simp
  have k1' := k1.trans (and_congr hm hnew)
  unfold Wants
  constructor
  · rintro ⟨r, hr, h5, rfl⟩
    have hr := List.mem_eraseDups.1 hr
    obtain ⟨m1, m2⟩ := k1'.1 ⟨r, hr, h5⟩
    have e : r.verdict = vd := k2 r hr
    rw [e]
    exact ⟨hl, m1, ⟨w, hact, (hvd vd).2 rfl⟩, m2⟩
  · rintro ⟨_, m1, ⟨w', hw', m3⟩, m2⟩
    rw [hact] at hw'
    obtain rfl : w = w' := by simpa using hw'
    obtain rfl := (hvd v).1 m3
    obtain ⟨r, hr, h5⟩ := k1'.2 ⟨m1, m2⟩
    exact ⟨r, List.mem_eraseDups.2 hr, h5, k2 r hr⟩

end Verif.Props
