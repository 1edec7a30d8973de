import Verif.Props.NftablesPolicy
import Verif.Props.OpenConfigRefuted

/-!
Concrete cases for the theorems about capirca/lib/nftables.py, and the policies for which C87 to C90 fail.
-/

namespace Verif.Props
open Verif Verif.Spec Verif.Spec.Nftables Verif.Nftables Policy Aclgenerator Nacaddr

/-! ### evaluation on concrete flows -/

instance nftProtoDec (s : String) (p : Packet) : Decidable (Spec.Nftables.ProtoIs s p) := inferInstanceAs (Decidable (∃ e ∈ protoNumbers, _))

instance nftSetDec (l : List Net) (v : Ver) (x : Nat) : Decidable (InSet l v x) := inferInstanceAs (Decidable (_ ∨ ∃ n ∈ l, _))

instance nftAddrsDec (a : Addrs) (p : Packet) : Decidable (AddrsHit a p) := inferInstanceAs (Decidable (_ ∧ _ ∧ _))

instance nftStmtDec (s : Stmt) (p : Packet) : Decidable (StmtHits s p) := by
  unfold StmtHits
  split <;> infer_instance

instance nftRuleDec (r : Rule) (f : Flow) : Decidable (Spec.Nftables.RuleHits r f) := by
  unfold Spec.Nftables.RuleHits
  infer_instance

instance nftKnownDec (f : Flow) : Decidable (Known f) := inferInstanceAs (Decidable (_ ∨ _))

instance nftLiveDec (g : NTerm) : Decidable (Spec.Nftables.Live g) :=
  inferInstanceAs (Decidable (_ ∧ _ ∧ _ ∧ _ ∧ (_ ∨ _) ∧ _))

instance nftSeesDec (s : String) (v : Ver) : Decidable (Sees s v) := inferInstanceAs (Decidable (_ ∨ _ ∨ _ ∨ _))

/-- A run in so many steps; for concrete cases. -/
def nftRun (t : Table) (f : Flow) : Nat → List Item → Option (Option String)
  | 0, _ => none
  | _ + 1, [] => some none
  | k + 1, .remark _ :: l => nftRun t f k l
  | k + 1, .known _ :: l => if Known f then some (some "accept") else nftRun t f k l
  | k + 1, .rule r :: l => if Spec.Nftables.RuleHits r f then some (some r.verdict) else nftRun t f k l
  | k + 1, .jump n :: l =>
    match nftRun t f k (Body t n) with
    | none => none
    | some (some v) => some (some v)
    | some none => nftRun t f k l

theorem nftRun_sound {t : Table} {f : Flow} : ∀ {k : Nat} {l : List Item} {o : Option String}, nftRun t f k l = some o → Run t f l o
  | 0, _, _, h => nomatch h
  | _ + 1, [], o, h => by
    cases h
    exact .done
  | k + 1, .remark _ :: l, o, h => .remark (nftRun_sound h)
  | k + 1, .known _ :: l, o, h => by
    unfold nftRun at h
    split at h
    next hk => cases h; exact .known hk
    next hk => exact .fresh hk (nftRun_sound h)
  | k + 1, .rule r :: l, o, h => by
    unfold nftRun at h
    split at h
    next hk => cases h; exact .hit hk
    next hk => exact .miss hk (nftRun_sound h)
  | k + 1, .jump n :: l, o, h => by
    unfold nftRun at h
    split at h
    · cases h
    next v e => cases h; exact .jump (nftRun_sound e)
    next e => exact .back (nftRun_sound e) (nftRun_sound h)

/-- A run ends in one way. -/
theorem run_det {t : Table} {f : Flow} {l : List Item} {o : Option String} (h : Run t f l o) : ∀ {o' : Option String}, Run t f l o' → o' = o := by
  induction h with
  | done => intro o' h; cases h; rfl
  | remark _ ih => intro o' h; cases h with | remark h => exact ih h
  | known hk => intro o' h; cases h with | known _ => rfl | fresh hn _ => exact absurd hk hn
  | fresh hn _ ih => intro o' h; cases h with | known hk => exact absurd hk hn | fresh _ h => exact ih h
  | hit hh => intro o' h; cases h with | hit _ => rfl | miss hn _ => exact absurd hh hn
  | miss hn _ ih => intro o' h; cases h with | hit hh => exact absurd hh hn | miss _ h => exact ih h
  | jump _ ih => intro o' h; cases h with | jump h => exact ih h | back h _ => cases ih h
  | back _ _ ih ih2 => intro o' h; cases h with | jump h => cases ih h | back _ h => exact ih2 h

theorem nftRun_iff {t : Table} {f : Flow} {k : Nat} {l : List Item} {o : Option String} (h : nftRun t f k l = some o) {o' : Option String} :
    Run t f l o' ↔ o' = o :=
  ⟨fun h' => run_det (nftRun_sound h) h', fun e => e ▸ nftRun_sound h⟩

/-- The base chains that see the packet; for concrete cases. -/
def nftBases (ts : List Table) (hook : String) (f : Flow) : List (Table × Str × String) :=
  ts.flatMap fun t => if Sees t.family f.packet.ver then
    t.chains.flatMap fun c => match c.base with
      | some (h, _, policy) => if h = hook then [(t, c.name, policy)] else []
      | none => []
  else []

/-- Whether the packet passes; for concrete cases. -/
def nftPasses (k : Nat) (ts : List Table) (hook : String) (f : Flow) : Option Bool :=
  let l := (nftBases ts hook f).map fun b => (nftRun b.1 f k (Body b.1 b.2.1)).map fun o => o == some "accept" || (o == none && b.2.2 == "accept")
  if l.all Option.isSome then some (l.all (· == some true)) else none

theorem nftPasses_iff {k : Nat} {ts : List Table} {hook : String} {f : Flow} {b : Bool} (h : nftPasses k ts hook f = some b) :
    Passes ts hook f ↔ b = true := by
  unfold nftPasses at h
  dsimp only at h
  split at h
  next hs =>
    have hs : ∀ e ∈ nftBases ts hook f, ∃ o, nftRun e.1 f k (Body e.1 e.2.1) = some o := by
      simp only [List.all_eq_true, List.mem_map, forall_exists_index, and_imp, forall_apply_eq_imp_iff₂, Option.isSome_map] at hs
      exact fun e he => Option.isSome_iff_exists.1 (hs e he)
    rw [← Option.some.inj h]
    have hb : Passes ts hook f ↔ ∀ e ∈ nftBases ts hook f,
        Run e.1 f (Body e.1 e.2.1) (some "accept") ∨ (Run e.1 f (Body e.1 e.2.1) none ∧ e.2.2 = "accept") := by
      unfold Passes nftBases
      constructor
      · intro hp e he
        obtain ⟨t, ht, he⟩ := List.mem_flatMap.1 he
        split at he
        next hv =>
          obtain ⟨c, hc, he⟩ := List.mem_flatMap.1 he
          split at he
          next h1 p1 p2 hcb =>
            split at he
            next e1 =>
              obtain rfl := List.mem_singleton.1 he
              exact hp t ht hv c hc _ _ (by rw [hcb, e1])
            · cases he
          · cases he
        · cases he
      · intro hp t ht hv c hc prio policy hcb
        refine hp (t, c.name, policy) (List.mem_flatMap.2 ⟨t, ht, ?_⟩)
        rw [if_pos hv]
        refine List.mem_flatMap.2 ⟨c, hc, ?_⟩
        rw [hcb]
        simp
    rw [hb]
    simp only [List.all_eq_true, List.mem_map, forall_exists_index, and_imp, forall_apply_eq_imp_iff₂, beq_iff_eq]
    refine forall_congr' fun e => forall_congr' fun he => ?_
    obtain ⟨o, ho⟩ := hs e he
    rw [nftRun_iff ho, nftRun_iff ho, ho, Option.map_some, Option.some.injEq, Bool.or_eq_true, Bool.and_eq_true, beq_iff_eq, beq_iff_eq,
      beq_iff_eq]
    exact or_congr eq_comm (and_congr eq_comm Iff.rfl)
  · cases h

/-- What a term wants; for concrete cases. -/
def nftWant (f : Flow) (g : NTerm) : Option String :=
  if Spec.Nftables.Live g ∧ Matches g.term f.packet then
    match g.term.action with
    | [w] => (verdicts.lookup w).filter fun v => v != "accept" || f.state == "new" || !g.term.icmpType.isEmpty
    | _ => none
  else none

theorem verdicts_iff {w v : String} : (w, v) ∈ verdicts ↔ verdicts.lookup w = some v :=
  ⟨fun h => by
    simp only [verdicts, List.mem_cons, List.not_mem_nil, or_false, Prod.mk.injEq] at h
    rcases h with ⟨rfl, rfl⟩ | ⟨rfl, rfl⟩ | ⟨rfl, rfl⟩ <;> rfl, Cisco.mem_of_lookup'⟩

theorem nftWant_iff {f : Flow} {g : NTerm} {v : String} : Spec.Nftables.Wants f g v ↔ nftWant f g = some v := by
  unfold nftWant Spec.Nftables.Wants
  by_cases h : Spec.Nftables.Live g ∧ Matches g.term f.packet
  · rw [if_pos h]
    simp only [h.1, h.2, true_and]
    split
    next w e =>
      rw [e, Option.filter_eq_some_iff]
      have : (v = "accept" → f.state = "new" ∨ g.term.icmpType ≠ []) ↔
          (v != "accept" || f.state == "new" || !g.term.icmpType.isEmpty) = true := by
        by_cases h1 : v = "accept" <;> by_cases h2 : f.state = "new" <;> by_cases h3 : g.term.icmpType = [] <;> simp [h1, h2, h3]
      rw [this, ← verdicts_iff]
      refine and_congr ⟨?_, fun h => ⟨w, rfl, h⟩⟩ Iff.rfl
      rintro ⟨w', e', h'⟩
      obtain rfl : w = w' := by simpa using e'
      exact h'
    next hn =>
      refine iff_of_false ?_ (by simp)
      rintro ⟨⟨w, e, _⟩, _⟩
      exact hn w e
  · rw [if_neg h]
    exact iff_of_false (fun h' => h ⟨h'.1, h'.2.1⟩) (by simp)

theorem nftFirst_iff {f : Flow} {v : String} : ∀ {gs : List NTerm}, First (Spec.Nftables.Wants f) gs v ↔ gs.findSome? (nftWant f) = some v
  | [] => iff_of_false Lemmas.first_nil (by simp)
  | g :: gs => by
    rw [Lemmas.first_cons, nftFirst_iff (gs := gs)]
    simp only [nftWant_iff, List.findSome?_cons]
    cases hw : nftWant f g with
    | none => simp
    | some w => simp

/-- Whether a filter decides to accept; for concrete cases. -/
def nftDecides (x : Nftables.Filter) (f : Flow) : Bool :=
  match x.terms.findSome? (nftWant f) with
  | some v => v == "accept"
  | none => x.options.contains "ACCEPT"

theorem nftDecides_iff {x : Nftables.Filter} {f : Flow} : Decides x f "accept" ↔ nftDecides x f = true := by
  unfold Decides nftDecides
  rw [nftFirst_iff]
  simp only [nftWant_iff]
  cases hw : x.terms.findSome? (nftWant f) with
  | none =>
    rw [List.findSome?_eq_none_iff] at hw
    unfold Default
    by_cases hc : "ACCEPT" ∈ x.options
    · simp [hc]
      intro g hg w
      rw [hw g hg]
      simp
    · simp [hc]
  | some v =>
    have : ¬ ∀ g ∈ x.terms, ∀ w, ¬ nftWant f g = some w := by
      intro h
      have := (List.findSome?_eq_none_iff (p := nftWant f) (l := x.terms)).2 fun g hg => by
        cases e : nftWant f g with
        | none => rfl
        | some w => exact absurd e (h g hg w)
      rw [hw] at this
      cases this
    simp [this]

/-- Whether the filter is for the hook and the family; for concrete cases. -/
def nftApplies (options : List String) (hook : String) (v : Ver) : Bool :=
  (match options with
    | _ :: k :: _ => k.toList.map Char.toLower == hook.toList
    | _ => false) &&
  match options.head? with
  | some "inet" => v == .v4
  | some "inet6" => v == .v6
  | some "mixed" => true
  | _ => false

theorem nftApplies_iff {options : List String} {hook : String} {v : Ver} :
    (Hook options hook ∧ ∃ af, Family options af ∧ Sees af v) ↔ nftApplies options hook v = true := by
  unfold nftApplies
  rw [Bool.and_eq_true]
  refine and_congr ?_ ?_
  · unfold Hook
    constructor
    · rintro ⟨a, k, l, rfl, h⟩
      simpa using h
    · intro h
      split at h
      next a k l => exact ⟨a, k, l, rfl, by simpa using h⟩
      · cases h
  · unfold Family Sees
    split
    next h => simp [h]
    next h => simp [h]
    next h => simp [h]
    next h1 h2 h3 =>
      refine iff_of_false ?_ (by simp)
      rintro ⟨af, (h | h | h), _⟩
      · exact h1 h.1
      · exact h2 h.1
      · exact h3 h.1

/-- Whether the packet passes, and whether it should; for concrete cases. -/
def nftCase (fs : List Nftables.Filter) (hook : String) (f : Flow) : Option (Bool × Bool) :=
  match output fs with
  | .ok ts => (nftPasses 40 ts hook f).map fun b => (b, fs.all fun x => !nftApplies x.options hook f.packet.ver || nftDecides x f)
  | .error _ => none

/-- The packet passes against the will of a filter, or does not pass though the filters want it. -/
def NftWrong (fs : List Nftables.Filter) (hook : String) (f : Flow) (b : Bool) : Prop :=
  ∃ ts, output fs = .ok ts ∧ (Passes ts hook f ↔ b = true) ∧
    ((∀ x ∈ fs, Hook x.options hook → (∃ af, Family x.options af ∧ Sees af f.packet.ver) → Decides x f "accept") ↔ b = false)

theorem nftCase_wrong {fs : List Nftables.Filter} {hook : String} {f : Flow} {b : Bool} (h : nftCase fs hook f = some (b, !b)) :
    NftWrong fs hook f b := by
  unfold nftCase at h
  split at h
  next ts e =>
    cases hp : nftPasses 40 ts hook f with
    | none => rw [hp] at h; cases h
    | some c =>
      rw [hp] at h
      have h := Option.some.inj h
      have h1 : c = b := congrArg Prod.fst h
      have h2 := congrArg Prod.snd h
      dsimp only at h2
      refine ⟨ts, e, h1 ▸ nftPasses_iff hp, ?_⟩
      have : b = false ↔ (!b) = true := by cases b <;> decide
      rw [this, ← h2]
      simp only [List.all_eq_true, Bool.or_eq_true, Bool.not_eq_true', ← nftDecides_iff]
      refine forall_congr' fun x => forall_congr' fun _ => ?_
      rw [← and_imp, nftApplies_iff]
      cases nftApplies x.options hook f.packet.ver <;> simp
  · cases h

/-- All terms of the filter pass the checks of the tool. -/
def NftAccepted (x : Nftables.Filter) : Prop :=
  ∀ g ∈ x.terms, initCheck Nftables.tables [(["nftables"], [kterm g.term])] = .ok () ∧ sanityCheck g.term = .ok ()

instance nftAcceptedDec (x : Nftables.Filter) : Decidable (NftAccepted x) := inferInstanceAs (Decidable (∀ g ∈ x.terms, _))

/-- The packets of the theorems. -/
def NftGood (f : Flow) : Prop := (f.packet.proto ∈ iana.map Prod.fst ∧ (f.packet.ver = .v4 → f.packet.proto ≠ "icmpv6") ∧
  (f.packet.ver = .v6 → f.packet.proto ≠ "icmp")) ∧ ¬ Known f

instance nftGoodDec (f : Flow) : Decidable (NftGood f) := inferInstanceAs (Decidable ((_ ∧ (_ → _) ∧ (_ → _)) ∧ ¬ _))

/-! ### the terms for which C87 fails -/

/-- A filter for packets that come in, of both families. -/
def nftIn (terms : List Term) : Nftables.Filter := { options := ["mixed", "INPUT"], terms := terms.map fun t => { term := t } }

/-- The same, of one family. -/
def nftFour (terms : List Term) : Nftables.Filter := { options := ["inet", "INPUT"], terms := terms.map fun t => { term := t } }

/-- The term passes the checks, the packet is of the kind of the theorems, and the outcome is the wrong one. -/
def NftBroken (x : Nftables.Filter) (f : Flow) (b : Bool) : Prop := NftAccepted x ∧ NftGood f ∧ NftWrong [x] "input" f b

theorem nft_broken {x : Nftables.Filter} {f : Flow} {b : Bool} (h1 : NftAccepted x) (h2 : NftGood f) (h3 : nftCase [x] "input" f = some (b, !b)) :
    NftBroken x f b := ⟨h1, h2, nftCase_wrong h3⟩

def nftTcp (dport : Nat) : Flow := { packet := { proto := "tcp", sport := 1024, dport := dport, src := 0x0a000001, dst := 0x0a000002 } }

/-- Two protocols and one list of ports: the ports are left out. -/
theorem C87_refuted_ports : NftBroken
    (nftFour [{ name := "a".toList, action := ["accept"], protocol := ["tcp", "udp"], destinationPort := [⟨53, 53⟩] }]) (nftTcp 22) true :=
  nft_broken (by decide +kernel) (by decide +kernel) (by decide +kernel)

/-- Two protocols, two lists of ports and an interface: the interface is in the first rule only. -/
theorem C87_refuted_interface : NftBroken
    (nftFour [{ name := "a".toList, action := ["accept"], protocol := ["udp", "tcp"], destinationPort := [⟨53, 53⟩],
                sourcePort := [⟨1024, 65535⟩], sourceInterface := some "eth0" }])
    { packet := { (nftTcp 53).packet with inInterface := "eth1" } } true :=
  nft_broken (by decide +kernel) (by decide +kernel) (by decide +kernel)

/-- All addresses are excluded: the rule is for all addresses. -/
theorem C87_refuted_excluded : NftBroken
    (nftFour [{ name := "a".toList, action := ["accept"], sourceAddress := [ip4 10 1 0 0 16], sourceAddressExclude := [ip4 10 0 0 0 8] }])
    (nftTcp 22) true :=
  nft_broken (by decide +kernel) (by decide +kernel) (by decide +kernel)

/-- An exclusion of addresses without addresses is not heeded. -/
theorem C87_refuted_exclusion : NftBroken
    (nftFour [{ name := "a".toList, action := ["accept"], sourceAddressExclude := [ip4 10 0 0 0 8] }]) (nftTcp 22) true :=
  nft_broken (by decide +kernel) (by decide +kernel) (by decide +kernel)

/-- Both ICMP protocols: no rule. -/
theorem C87_refuted_both : NftBroken
    (nftIn [{ name := "a".toList, action := ["accept"], protocol := ["icmp", "icmpv6"] }]) { packet := { proto := "icmp", icmpType := "echo-request" } } false :=
  nft_broken (by decide +kernel) (by decide +kernel) (by decide +kernel)

/-- ICMP and another protocol: no rule for IPv6. -/
theorem C87_refuted_half : NftBroken
    (nftIn [{ name := "a".toList, action := ["accept"], protocol := ["icmp", "tcp"] }]) { packet := { (nftTcp 22).packet with ver := .v6 } } false :=
  nft_broken (by decide +kernel) (by decide +kernel) (by decide +kernel)

/-- A deny of both protocols lets packets through that are accepted later. -/
theorem C87_refuted_deny : NftBroken
    (nftIn [{ name := "a".toList, action := ["deny"], protocol := ["icmp", "icmpv6"] }, { name := "b".toList, action := ["accept"] }])
    { packet := { proto := "icmp", icmpType := "echo-request" } } true :=
  nft_broken (by decide +kernel) (by decide +kernel) (by decide +kernel)

/-- The name of the protocol stands for another number: IP in IP has 4, nftables takes `ipip` for 94. -/
theorem C87_refuted_ipip : NftBroken
    (nftFour [{ name := "a".toList, action := ["accept"], protocol := ["ipip"] }]) { packet := { proto := "ipip" } } false :=
  nft_broken (by decide +kernel) (by decide +kernel) (by decide +kernel)

/-- The family a term is restricted to is only warned about. -/
theorem C87_refuted_family : NftBroken
    (nftIn [{ name := "a".toList, action := ["accept"], restrictAddressFamily := some "inet6" }]) (nftTcp 22) true :=
  nft_broken (by decide +kernel) (by decide +kernel) (by decide +kernel)

/-- Tags of sources are only warned about. -/
theorem C87_refuted_tag : NftBroken
    (nftIn [{ name := "a".toList, action := ["accept"], sourceTag := ["db"] }]) (nftTcp 22) true :=
  nft_broken (by decide +kernel) (by decide +kernel) (by decide +kernel)

/-! ### the names for which C87, C88 and C89 fail -/

/-- Two filters with a term of the same name, which accepts in the one and denies in the other. -/
def nftTwice : List Nftables.Filter :=
  [{ options := ["inet", "INPUT"], terms := [{ term := { name := "a".toList, action := ["accept"], protocol := ["udp"] } }] },
   { options := ["inet", "FORWARD"], terms := [{ term := { name := "a".toList, action := ["accept"] } }] }]

/-- The terms share a chain: what may pass by may also come in. -/
theorem C87_refuted_names : (∀ x ∈ nftTwice, NftAccepted x) ∧ NftGood (nftTcp 22) ∧ NftWrong nftTwice "input" (nftTcp 22) true :=
  ⟨by decide +kernel, by decide +kernel, nftCase_wrong (by decide +kernel)⟩

/-- Two chains of a table have the same name. -/
theorem C89_refuted_names : ∃ ts, output nftTwice = .ok ts ∧ ∃ t ∈ ts, ¬ (t.chains.map Chain.name).Nodup :=
  ⟨_, rfl, _, List.mem_cons_self, by decide +kernel⟩

/-- Eleven filters; the first and the last name their base chains `x1` and `x`. -/
def nftEleven : List Nftables.Filter :=
  { options := ["inet", "INPUT", "base-chain-name", "x1"], terms := [{ term := { name := "a".toList, action := ["deny"] } }] } ::
  List.replicate 9 { options := ["inet", "OUTPUT"] } ++
  [{ options := ["inet", "INPUT", "base-chain-name", "x"], terms := [{ term := { name := "b".toList, action := ["accept"] } }] }]

/-- Both chains are called `x10`, and the first is lost. -/
theorem C87_refuted_base : (∀ x ∈ nftEleven, NftAccepted x) ∧ NftGood (nftTcp 22) ∧ NftWrong nftEleven "input" (nftTcp 22) true :=
  ⟨by decide +kernel, by decide +kernel, nftCase_wrong (by decide +kernel)⟩

/-- A term named like the base chain. -/
def nftRoot : Nftables.Filter := nftFour [{ name := "root0".toList, action := ["deny"] }]

/-- The rules of the term come first in the base chain, and packets of known connections are dropped. -/
theorem C88_refuted_names : NftAccepted nftRoot ∧ ∃ ts fl, output [nftRoot] = .ok ts ∧ Known fl ∧ ¬ Passes ts "input" fl := by
  refine ⟨by decide +kernel, _, { packet := {}, state := "established" }, rfl, .inl rfl, ?_⟩
  rw [nftPasses_iff (k := 40) (b := false) (by decide +kernel)]
  decide

/-- A term with ICMP types accepts packets in every state. -/
theorem C88_refuted_icmp : ∃ x ts fl, NftAccepted x ∧ output [x] = .ok ts ∧ fl.state = "invalid" ∧ Passes ts "input" fl := by
  refine ⟨nftFour [{ name := "a".toList, action := ["accept"], protocol := ["icmp"], icmpType := ["echo-reply"] }], _,
    { packet := { proto := "icmp", icmpType := "echo-reply" }, state := "invalid" }, by decide +kernel, rfl, rfl, ?_⟩
  rw [nftPasses_iff (k := 40) (b := true) (by decide +kernel)]

/-! ### C90 -/

/-- The comment of a header is written as it is: a line end in it ends the remark. -/
theorem C90_refuted_header : ∃ x ts s, NftAccepted x ∧ output [x] = .ok ts ∧ (∃ t ∈ ts, ∃ c ∈ t.chains, Item.remark s ∈ c.items) ∧ '\n' ∈ s := by
  refine ⟨{ (nftFour []) with comment := ["old".toList ++ '\n' :: "flush ruleset".toList] }, _, "old".toList ++ '\n' :: "flush ruleset".toList,
    by decide +kernel, rfl, ⟨_, List.mem_cons_self, _, List.mem_cons_self, ?_⟩, by decide⟩
  decide +kernel

/-! ### concrete cases -/

theorem base_root {options : List String} (h : "base-chain-name" ∉ options) {b : String} (hb : BaseOf options b) : b = "root" := by
  rcases hb with h' | ⟨pre, post, e⟩
  · exact h'
  · refine absurd (List.mem_of_mem_erase (b := "noverbose") ?_) h
    rw [e]
    simp

theorem distinct_of {fs : List Nftables.Filter} (h1 : ∀ f ∈ fs, "base-chain-name" ∉ f.options)
    (h2 : ∀ f ∈ fs, ∀ g ∈ f.terms, g.term.name.take 4 ≠ "root".toList)
    (h3 : fs.Pairwise fun f f' => ∀ g ∈ f.terms, ∀ g' ∈ f'.terms, g.term.name ≠ g'.term.name) : Distinct fs where
  bases := by
    intro f hf b hb c hc
    rw [base_root (h1 f hf) hb] at hc
    have : c = 't' := by
      have : "root".toList.getLast? = some 't' := by decide
      rw [this] at hc
      exact (Option.some.inj hc).symm
    rw [this]
    decide
  terms := by
    intro f hf g hg f' hf' b hb n e
    rw [base_root (h1 f' hf') hb] at e
    refine h2 f hf g hg ?_
    rw [e]
    have : "root".toList = ['r', 'o', 'o', 't'] := by decide
    rw [this]
    rfl
  filters := h3.imp (S := fun f f' => _ → _) fun h _ => h

def nftSsh : Term :=
  { name := "ssh".toList, action := ["accept"], protocol := ["tcp"], destinationPort := [⟨22, 22⟩], sourceInterface := some "eth0",
    sourceAddress := [ip4 10 0 0 0 8, { ver := .v6, addr := 0x20010db8000000000000000000000000, plen := 32 }], sourceAddressExclude := [ip4 10 1 0 0 16] }

def nftPing : Term := { name := "ping".toList, action := ["accept"], protocol := ["icmpv6"], icmpType := ["echo-request", "neighbor-solicit"] }

def nftRest : Term := { name := "rest".toList, action := ["reject"] }

def nftWay : Term := { name := "way".toList, action := ["deny"], protocol := ["tcp", "udp"], sourcePort := [⟨0, 1023⟩], destinationPort := [⟨0, 1023⟩] }

/-- Three filters for two hooks. -/
def nftPolicy : List Nftables.Filter :=
  [{ options := ["mixed", "INPUT"], comment := ["in".toList], terms := [{ term := nftSsh, comment := ["say \"ssh\"".toList] }, { term := nftPing }] },
   { options := ["inet6", "INPUT", "ACCEPT", "10"], terms := [{ term := nftRest, expired := true }] },
   { options := ["inet", "forward", "ACCEPT", "noverbose"], terms := [{ term := nftWay }] }]

theorem nftPolicy_distinct : Distinct nftPolicy := distinct_of (by decide) (by decide +kernel) (by decide +kernel)

theorem nft_basic {fam : Ver → Prop} {t : Term} (h1 : initCheck Nftables.tables [(["nftables"], [kterm t])] = .ok ()) (h2 : sanityCheck t = .ok ())
    (h3 : ∃ w ∈ ["accept", "deny", "reject"], t.action = [w]) (h4 : t.restrictAddressFamily = none) (h5 : Untagged t)
    (h6 : ∀ n ∈ t.sourceAddress ++ t.sourceAddressExclude, WF n) (h7 : t.destinationAddress ++ t.destinationAddressExclude = [])
    (h8 : t.sourceAddressExclude ≠ [] → ∃ v x, Den t.sourceAddress v x ∧ ¬ Den t.sourceAddressExclude v x)
    (h9 : ∀ s ∈ t.protocol, ∃ e ∈ iana, e.1 = s ∧ e ∈ protoNumbers)
    (h10 : t.sourcePort ≠ [] ∨ t.destinationPort ≠ [] → t.protocol ≠ [] ∧
      (t.protocol.length = 1 ∨ (t.sourcePort ≠ [] ∧ t.destinationPort ≠ [])))
    (h11 : t.protocol.length ≤ 1 ∨ (t.sourceInterface = none ∧ t.destinationInterface = none))
    (h12 : t.icmpType ≠ [] → (t.protocol = ["icmp"] ∧ ∀ s ∈ t.icmpType, s ∈ icmpV4.map Prod.fst) ∨
      (t.protocol = ["icmpv6"] ∧ ∀ s ∈ t.icmpType, s ∈ icmpV6.map Prod.fst))
    (h13 : t.protocol.length ≤ 1 ∨ ("icmp" ∉ t.protocol ∧ "icmpv6" ∉ t.protocol)) (ex : Bool) (c : List Str) :
    NftFits fam { term := t, expired := ex, comment := c } where
  keywords := h1
  sane := h2
  action := h3
  family := h4
  untagged := h5
  src := h6
  dst := by
    intro n hn
    rw [h7] at hn
    cases hn
  srcLeft := h8
  dstLeft := by
    intro h
    exact absurd (List.append_eq_nil_iff.1 h7).2 h
  protos := by
    intro s hs
    obtain ⟨e, h1, rfl, h2⟩ := h9 s hs
    exact ⟨e.2, h1, h2⟩
  ports := h10
  iface := by
    intro h
    rcases h11 with h' | ⟨e1, e2⟩
    · exact .inl h'
    · rcases h with h | h
      · exact absurd e1 h
      · exact absurd e2 h
  types := h12
  four := by
    intro _ hm s hs
    rcases h13 with h | h
    · match hp : t.protocol, h with
      | [], _ => rw [hp] at hm; cases hm
      | [a], _ =>
        rw [hp] at hm hs
        rw [List.mem_singleton.1 hs, ← List.mem_singleton.1 hm]
    · exact absurd hm h.2
  six := by
    intro _ hm s hs
    rcases h13 with h | h
    · match hp : t.protocol, h with
      | [], _ => rw [hp] at hm; cases hm
      | [a], _ =>
        rw [hp] at hm hs
        rw [List.mem_singleton.1 hs, ← List.mem_singleton.1 hm]
    · exact absurd hm h.1

theorem nftPolicy_fits : ∀ f ∈ nftPolicy, ∀ af, Family f.options af → ∀ g ∈ f.terms, Spec.Nftables.Live g → NftFits (Sees af) g := by
  have no : ∀ {t : Term}, t.sourceAddressExclude = [] → (t.sourceAddressExclude ≠ [] → ∃ v x, Den t.sourceAddress v x ∧ ¬ Den t.sourceAddressExclude v x) :=
    fun e h => absurd e h
  intro f hf af _ g hg _
  simp only [nftPolicy, List.mem_cons, List.not_mem_nil, or_false] at hf
  rcases hf with rfl | rfl | rfl
  · simp only [List.mem_cons, List.not_mem_nil, or_false] at hg
    rcases hg with rfl | rfl
    · refine nft_basic (by decide +kernel) (by decide +kernel) ⟨"accept", by decide⟩ rfl ⟨rfl, rfl, (by decide), (by decide)⟩ (by decide +kernel) rfl ?_
        (by decide +kernel) (by decide) (by decide) (by decide) (by decide) _ _
      intro _
      refine ⟨.v4, 0x0a000001, ⟨_, List.mem_cons_self, ?_⟩, ?_⟩
      · decide
      · rintro ⟨n, hn, h⟩
        obtain rfl := List.mem_singleton.1 hn
        revert h
        decide
    · exact nft_basic (by decide +kernel) (by decide +kernel) ⟨"accept", by decide⟩ rfl ⟨rfl, rfl, (by decide), (by decide)⟩ (by decide +kernel) rfl (no rfl)
        (by decide +kernel) (by decide) (by decide) (by decide +kernel) (by decide) _ _
  · obtain rfl := List.mem_singleton.1 hg
    exact nft_basic (by decide +kernel) (by decide +kernel) ⟨"reject", by decide⟩ rfl ⟨rfl, rfl, (by decide), (by decide)⟩ (by decide +kernel) rfl (no rfl)
      (by decide +kernel) (by decide) (by decide) (by decide) (by decide) _ _
  · obtain rfl := List.mem_singleton.1 hg
    exact nft_basic (by decide +kernel) (by decide +kernel) ⟨"deny", by decide⟩ rfl ⟨rfl, rfl, (by decide), (by decide)⟩ (by decide +kernel) rfl (no rfl)
      (by decide +kernel) (by decide) (by decide) (by decide) (by decide) _ _

theorem nftPolicy_output : ∃ ts, output nftPolicy = .ok ts := by
  have h : (match output nftPolicy with | .ok _ => true | .error _ => false) = true := by decide +kernel
  split at h
  next ts e => exact ⟨ts, e⟩
  · cases h

/-- A packet to port 22 comes in, one with low ports does not pass by. -/
example : ∃ ts, output nftPolicy = .ok ts ∧ Passes ts "input" { packet := { (nftTcp 22).packet with inInterface := "eth0" } } ∧
    ¬ Passes ts "forward" { packet := { (nftTcp 22).packet with sport := 1000 } } := by
  obtain ⟨ts, h⟩ := nftPolicy_output
  have key := fun hook fl (h1 : NftGood fl) => C87_policy_partial nftPolicy_distinct h nftPolicy_fits (by unfold Overridden; decide) hook fl ⟨h1.1.1, h1.1.2.1, h1.1.2.2⟩ h1.2
  have dec : ∀ hook fl, (∀ f ∈ nftPolicy, Hook f.options hook → (∃ af, Family f.options af ∧ Sees af fl.packet.ver) → Decides f fl "accept") ↔
      (nftPolicy.all fun x => !nftApplies x.options hook fl.packet.ver || nftDecides x fl) = true := by
    intro hook fl
    simp only [List.all_eq_true, Bool.or_eq_true, Bool.not_eq_true', ← nftDecides_iff]
    refine forall_congr' fun x => forall_congr' fun _ => ?_
    rw [← and_imp, nftApplies_iff]
    cases nftApplies x.options hook fl.packet.ver <;> simp
  refine ⟨ts, h, ?_, ?_⟩
  · rw [key _ _ (by decide +kernel), dec]
    decide +kernel
  · rw [key _ _ (by decide +kernel), dec]
    decide +kernel

/-- The chain of the second filter, with its priority. -/
example : ∃ ts, output nftPolicy = .ok ts ∧ ∃ t ∈ ts, t.family = "ip6" ∧ ∃ c ∈ t.chains, c.name = "root1".toList ∧
    c.base = some ("input", "10", "accept") := by
  obtain ⟨ts, h⟩ := nftPolicy_output
  obtain ⟨t, ht, c, hc, ⟨b, hb, hn⟩, hf, hbase, _⟩ := C87_chain_partial nftPolicy_distinct h (n := 1) rfl
    (nftPolicy_fits _ (by simp [nftPolicy]))
  have hfam : t.family = "ip6" := by
    rcases hf with h | ⟨h, _⟩
    · rcases h with ⟨h, _⟩ | ⟨_, h⟩ | ⟨h, _⟩
      · exact absurd h (by decide)
      · exact h
      · exact absurd h (by decide)
    · exact absurd h (by unfold Overridden; decide)
  refine ⟨ts, h, t, ht, hfam, c, hc, ?_, ?_⟩
  · rw [hn, base_root (by decide) hb]
    decide +kernel
  · rcases hbase with ⟨_, h⟩ | ⟨hook, prio, policy, e, h1, h2, h3⟩
    · exact absurd h (by decide)
    · rw [e, hook_unique (b := "input") h1 ⟨"inet6", "INPUT", ["ACCEPT", "10"], rfl, by decide⟩, h2.1 "10" (by decide) (by unfold Numeric; decide)]
      have : policy = "accept" := by
        rw [show policy = _ from h3]
        rfl
      rw [this]

/-- Packets of known connections pass; others in no good state are not accepted by a chain of the policy without the term with
ICMP types. -/
example : ∃ ts, output nftPolicy = .ok ts ∧ Passes ts "input" { packet := {}, state := "related" } := by
  obtain ⟨ts, h⟩ := nftPolicy_output
  exact ⟨ts, h, C88_known_partial nftPolicy_distinct h _ _ (.inr rfl)⟩

example : ∃ ts, output [nftFour [nftSsh]] = .ok ts ∧ ∀ t ∈ ts, ¬ Run t { packet := {}, state := "invalid" } (Body t "root0".toList) (some "accept") := by
  have h : (match output [nftFour [nftSsh]] with | .ok _ => true | .error _ => false) = true := by decide +kernel
  split at h
  next ts e =>
    refine ⟨ts, e, fun t ht => C88_invalid e ?_ (by decide) (by decide) ht _⟩
    intro f hf g hg _
    rw [List.mem_singleton.1 hf] at hg
    rw [List.mem_singleton.1 hg]
    exact ⟨"accept", rfl, fun _ => rfl⟩
  · cases h

/-- The names, jumps and comments of the policy. -/
example : ∃ ts, output nftPolicy = .ok ts ∧ ∀ t ∈ ts, (t.chains.map Chain.name).Nodup ∧ ∀ c ∈ t.chains,
    (∀ n, Item.jump n ∈ c.items → ∃ d ∈ t.chains, d.name = n) ∧ ∀ s, Item.known (some s) ∈ c.items → CommentOk s := by
  obtain ⟨ts, h⟩ := nftPolicy_output
  refine ⟨ts, h, fun t ht => ⟨(C89_chains_partial nftPolicy_distinct h ht).1, fun c hc => ⟨fun n hn => ?_, (C90_comments h ht hc).2⟩⟩⟩
  obtain ⟨d, hd, e, _⟩ := C89_jumps h ht hc hn
  exact ⟨d, hd, e⟩

/-- The policy has jumps and comments. -/
example : (match output nftPolicy with
    | .ok ts => ts.any fun t => t.chains.any fun c => c.items.contains (.jump "ssh".toList) && c.items.contains (.known (some "\"in\"".toList))
    | .error _ => false) = true := by decide +kernel

/-- A term that logs and counts, and one that does neither. -/
def nftLogs : Nftables.Filter :=
  { options := ["inet", "INPUT"]
    terms := [{ term := { name := "a".toList, action := ["deny"], logging := ["true"] }, counter := true }, { term := { name := "b".toList, action := ["accept"] } }] }

example : ∃ ts, output [nftLogs] = .ok ts ∧ ∃ t ∈ ts, ∃ c ∈ t.chains, ∃ r, Item.rule r ∈ c.items ∧ c.name = "a".toList ∧
    r.log = some "a".toList ∧ r.counter = true ∧ r.verdict = "drop" := by
  refine ⟨_, rfl, _, List.mem_cons_self, _, List.mem_cons_self, _, List.mem_cons_self, ?_⟩
  decide +kernel

end Verif.Props
