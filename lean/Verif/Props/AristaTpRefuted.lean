import Verif.Props.AristaTpOut
import Verif.Props.OpenConfigRefuted

/-!
Concrete cases for the theorems about capirca/lib/arista_tp.py, and the policies for which C122 to C124 and C126 fail.
-/

namespace Verif.Props
open Verif Verif.Spec Verif.Spec.Eos Verif.AristaTp Policy Aclgenerator Nacaddr

/-! ### evaluation on concrete packets -/

instance eosProtoDec (p : Packet) (t : ProtoTok) : Decidable (ProtoIs p t) :=
  match t with
  | .word s => decidable_of_iff (∃ x ∈ protoNames, x.1 = s ∧ (p.proto, x.2) ∈ iana)
      ⟨fun ⟨x, h1, h2, h3⟩ => ⟨x.2, h2 ▸ h1, h3⟩, fun ⟨n, h1, h2⟩ => ⟨(s, n), h1, rfl, h2⟩⟩
  | .num n => decidable_of_iff (∃ x ∈ iana, x.1 = p.proto ∧ n = (x.2 : Int))
      ⟨fun ⟨x, h1, h2, h3⟩ => ⟨x.2, h2 ▸ h1, h3⟩, fun ⟨k, h1, h2⟩ => ⟨(p.proto, k), h1, rfl, h2⟩⟩
  | .range a b => decidable_of_iff (∃ x ∈ iana, x.1 = p.proto ∧ a ≤ (x.2 : Int) ∧ (x.2 : Int) ≤ b)
      ⟨fun ⟨x, h1, h2, h3⟩ => ⟨x.2, h2 ▸ h1, h3⟩, fun ⟨k, h1, h2⟩ => ⟨(p.proto, k), h1, rfl, h2⟩⟩

instance eosLineDec (p : Packet) (l : ProtoLine) : Decidable (LineHits p l) :=
  decidable_of_iff ((∃ t ∈ l.protos, ProtoIs p t) ∧ (l.flags ≠ [] → l.protos = [.word "tcp"]) ∧
    (∀ f ∈ l.flags, ∃ x ∈ flagNames, x.1 = f ∧ p.hasOption x.2 = true) ∧
    (l.sport ++ l.dport ≠ [] → ∀ t ∈ l.protos, t = .word "tcp" ∨ t = .word "udp") ∧
    (PortMatch l.sport p.sport ∧ PortMatch l.dport p.dport) ∧
    (l.types ++ l.codes ≠ [] → l.protos = [.word "icmp"] ∨ l.protos = [.word "icmpv6"]) ∧
    (l.types = [] ∨ ∃ k ∈ l.types, (p.icmpType, k) ∈ icmpNumbers p.ver) ∧ OneOf l.codes p.icmpCode)
    ⟨fun ⟨h1, h2, h3, h4, h5, h6, h7, h8⟩ => ⟨h1, h2, fun f hf => by
        obtain ⟨x, hx, e, h⟩ := h3 f hf
        exact ⟨x.2, e ▸ hx, h⟩, h4, h5.1, h5.2, h6, h7, h8⟩,
      fun h => ⟨h.proto, h.flagsTcp, fun f hf => by
        obtain ⟨o, ho, h'⟩ := h.flags f hf
        exact ⟨(f, o), ho, rfl, h'⟩, h.ports, ⟨h.sport, h.dport⟩, h.typesIcmp, h.types, h.codes⟩⟩

instance eosSetDec (sets : List FieldSet) (d : Dir) (p : Packet) (n : Str) : Decidable (InSet sets d p n) := by
  unfold InSet Flat.Covers
  infer_instance

instance eosHoldsDec (sets : List FieldSet) (p : Packet) (c : Cond) : Decidable (Holds sets p c) := by
  cases c <;> unfold Holds <;> (try unfold Flat.Covers) <;> infer_instance

instance eosVerdictDec (as : List Act) (b : Bool) : Decidable (Verdict as b) :=
  decidable_of_iff ((b = false ∧ Act.word (some "drop") ∈ as) ∨ (b = true ∧ ∀ a ∈ as, (match a with | .word _ => false | _ => true) = true))
    (or_congr Iff.rfl (and_congr Iff.rfl ⟨fun h s hs => (by cases h _ hs), fun h a ha => by
      cases a with
      | word s => exact absurd ha (h s)
      | _ => rfl⟩))

/-- What an entry decides; for concrete cases. -/
def eosDoes (sets : List FieldSet) (p : Packet) : Out → Option Bool
  | .verbatim _ => none
  | .entry _ v cs as =>
    if v = p.ver ∧ ∀ c ∈ cs, Holds sets p c then
      if Verdict as true then some true else if Verdict as false then some false else none
    else none

theorem eosDoes_iff {sets : List FieldSet} {p : Packet} {o : Out} {a : Bool} : Does sets p o a ↔ eosDoes sets p o = some a := by
  have huniq : ∀ {as : List Act}, Verdict as true → Verdict as false → False := by
    intro as h1 h2
    unfold Verdict at h1 h2
    simp only [Bool.true_eq_false, false_and, true_and, false_or] at h1
    simp only [Bool.false_eq_true, false_and, true_and, or_false] at h2
    exact h1 _ h2
  cases o with
  | verbatim ls =>
    constructor
    · rintro ⟨_, _, _, h, _⟩; cases h
    · intro h; cases h
  | entry n v cs as =>
    unfold eosDoes
    constructor
    · rintro ⟨_, _, _, h, h1, h2⟩
      cases h
      dsimp only
      rw [if_pos ⟨rfl, h1⟩]
      cases a with
      | true => rw [if_pos h2]
      | false => rw [if_neg (fun h => huniq h h2), if_pos h2]
    · intro h
      dsimp only at h
      split at h
      next hc =>
        obtain ⟨rfl, hc⟩ := hc
        split at h
        next h1 => cases h; exact ⟨_, _, _, rfl, hc, h1⟩
        · split at h
          next h1 => cases h; exact ⟨_, _, _, rfl, hc, h1⟩
          · cases h
      · cases h

instance eosLiveDec (a : ATerm) : Decidable (Live a) := by
  unfold Live
  infer_instance

instance eosMeansDec (t : Term) (p : Packet) : Decidable (Ios.Means t p) := by
  unfold Ios.Means
  infer_instance

instance eosPermitsDec (w : String) (b : Bool) : Decidable (Ios.Permits w b) := by
  unfold Ios.Permits
  infer_instance

/-- What a term wants; for concrete cases. -/
def eosWant (p : Packet) (a : ATerm) : Option Bool :=
  if Live a ∧ Ios.Means a.term p then
    match a.term.action with
    | [w] => if Ios.Permits w true then some true else if Ios.Permits w false then some false else none
    | _ => none
  else none

theorem eosWant_iff {p : Packet} {a : ATerm} {b : Bool} : Wants a p b ↔ eosWant p a = some b := by
  unfold eosWant Wants
  constructor
  · rintro ⟨h1, h2, w, hw, h3⟩
    rw [if_pos ⟨h1, h2⟩, hw]
    dsimp only
    cases b with
    | true => rw [if_pos h3]
    | false => rw [if_neg (fun h => by cases permits_unique h h3), if_pos h3]
  · intro h
    split at h
    next h1 =>
      split at h
      next w hw =>
        refine ⟨h1.1, h1.2, w, hw, ?_⟩
        split at h
        next h2 => cases h; exact h2
        · split at h
          next h2 => cases h; exact h2
          · cases h
      · cases h
    · cases h

theorem eos_findSome {L : Type} {hit : L → Bool → Prop} {w : L → Option Bool} (hw : ∀ x a, hit x a ↔ w x = some a)
    {a : Bool} : ∀ {l : List L}, First hit l a ↔ l.findSome? w = some a
  | [] => iff_of_false Lemmas.first_nil (by simp)
  | x :: l => by
    rw [Lemmas.first_cons, eos_findSome hw]
    simp only [hw, List.findSome?_cons]
    cases w x <;> simp

/-- The term passes the checks of the tool. -/
def AtpAccepted (t : Term) : Prop := initCheck AristaTp.tables [(["arista_tp"], [kterm t])] = .ok () ∧ sanityCheck t = .ok ()

instance atpAcceptedDec (t : Term) : Decidable (AtpAccepted t) := inferInstanceAs (Decidable (_ ∧ _))

/-- The tool takes the filters. About some packet they decide `want` for the policy `name`; what is printed decides `got`. -/
def AtpSays (fs : List Filter) (name : String) (want got : Option Bool) : Prop :=
  ∃ p bs, (∀ f ∈ fs, ∀ a ∈ f.terms, AtpAccepted a.term) ∧ Packets p ∧ AristaTp.translate fs = .ok bs ∧
    (∀ b, PolicyDecides (termsOf (some name) p.ver fs) p b ↔ want = some b) ∧
    ∀ b, Decides (setsOf bs) (entriesOf (some name) [] bs) p b ↔ got = some b

/-- The decidable part. -/
def atpCheck (fs : List Filter) (name : String) (p : Packet) (want got : Option Bool) : Bool :=
  decide (∀ f ∈ fs, ∀ a ∈ f.terms, AtpAccepted a.term) &&
  decide (Coherent p ∧ p.hopLimit = p.ttl ∧ (p.ver = .v4 → p.proto ≠ "hopopt")) &&
  (termsOf (some name) p.ver fs).findSome? (eosWant p) == want &&
  match AristaTp.translate fs with
  | .ok bs => (inOrder (entriesOf (some name) [] bs)).findSome? (eosDoes (setsOf bs) p) == got
  | .error _ => false

theorem atp_says {fs : List Filter} {name : String} {want got : Option Bool} (p : Packet)
    (h : atpCheck fs name p want got = true) : AtpSays fs name want got := by
  unfold atpCheck at h
  split at h
  next bs hbs =>
    simp only [Bool.and_eq_true, decide_eq_true_eq, beq_iff_eq] at h
    obtain ⟨⟨⟨a1, a2⟩, a3⟩, a4⟩ := h
    refine ⟨p, bs, a1, ⟨a2.1, a2.2.1, a2.2.2⟩, hbs, fun b => ?_, fun b => ?_⟩
    · unfold PolicyDecides
      rw [eos_findSome (w := eosWant p) (fun x a => eosWant_iff), a3]
    · unfold Decides
      rw [eos_findSome (w := eosDoes (setsOf bs) p) (fun x a => eosDoes_iff), a4]
  · simp at h

/-! ### a case -/

/-- Two filters for one policy: one with field sets, exclusions, ports, types and a default, one for IPv6. -/
def atpFilters : List Filter :=
  [{ options := ["tp", "inet6", "field_set"],
     terms := [{ term := { name := "six".toList, action := ["deny"], sourceAddress := [ip6 32 16], sourceAddressExclude := [ip6 32 24] } }] },
   { options := ["tp"],
     terms := [
      { term := { name := "gone".toList, action := ["accept"], protocol := ["tcp"] }, expired := true },
      { term := { name := "web".toList, action := ["accept"], protocol := ["tcp", "udp"],
                  sourceAddress := [ip4 10 0 0 0 8, ip6 33 16], sourceAddressExclude := [ip4 10 1 0 0 16],
                  destinationPort := [(80, 80), (8000, 8100)] }, counter := "web.hits" },
      { term := { name := "web2".toList, action := ["reject"], protocol := ["tcp"],
                  destinationAddress := [ip4 10 0 0 0 8], destinationAddressExclude := [ip4 10 1 0 0 16] } },
      { term := { name := "back".toList, action := ["accept"], protocol := ["tcp"], option := ["established"] } },
      { term := { name := "ping".toList, action := ["accept"], protocol := ["icmp"], icmpType := ["echo-request"] } },
      { term := { name := "lists".toList, action := ["accept"], sourcePrefix := ["office"], protocolExcept := ["tcp", "udp"] } },
      { term := { name := "default-deny".toList, action := ["deny"] } }] }]

example : AtpSays atpFilters "tp" (some true) (some true) :=
  atp_says { proto := "tcp", src := 10 * 2 ^ 24 + 5, dst := 7, dport := 8050, sport := 1024 } (by decide +kernel)

example : AtpSays atpFilters "tp" (some false) (some false) :=
  atp_says { proto := "gre", src := 10 * 2 ^ 24 + 2 ^ 16, dst := 7 } (by decide +kernel)

example : AtpSays atpFilters "tp" (some false) (some false) :=
  atp_says { ver := .v6, proto := "gre", src := 32 * 2 ^ 120 + 2 ^ 112, dst := 7 } (by decide +kernel)

instance cleanDec (s : Str) : Decidable (Clean s) := by
  unfold Clean
  infer_instance

instance usesSetDec (opts : List String) (a : ATerm) (d : Dir) : Decidable (UsesSet opts a d) := by
  unfold UsesSet
  infer_instance

theorem namedDefault_iff {a : ATerm} : NamedDefault a ↔ "default-".toList.isPrefixOf (a.term.name.map Char.toLower) = true :=
  startsLower_iff.symm

instance namedDefaultDec (a : ATerm) : Decidable (NamedDefault a) := decidable_of_iff _ namedDefault_iff.symm

theorem allDirs {P : Dir → Prop} (h1 : P .source) (h2 : P .destination) : ∀ d, P d
  | .source => h1
  | .destination => h2

theorem allVers {P : Ver → Prop} (h1 : P .v4) (h2 : P .v6) : ∀ v, P v
  | .v4 => h1
  | .v6 => h2

/-- The names of the case are fine. -/
theorem atpFilters_names : AtpNames atpFilters := by
  refine ⟨by decide +kernel, by decide +kernel, by decide +kernel, ?_, ?_, ?_⟩
  · intro f hf hh a ha hd
    refine allDirs ?_ ?_
    · revert f a; decide +kernel
    · revert f a; decide +kernel
  · intro f hf hh a ha b hb
    refine allDirs ?_ ?_
    · revert f a b; decide +kernel
    · revert f a b; decide +kernel
  · have e : atpFilters.filter Filter.here = atpFilters := rfl
    have key : atpFilters.Pairwise fun f g => ∀ a ∈ f.terms, ∀ b ∈ g.terms, a.term.name ≠ b.term.name := by decide +kernel
    rw [e]
    exact key.imp fun h v _ _ a ha b hb d _ _ => h a ha b hb

theorem cuts_none {v : Ver} {inc exc : List Net} (h : inc = [] ∨ exc = [] ∨ (∀ e ∈ exc, e.ver ≠ v)) : Cuts v inc exc := by
  rintro ⟨n, hn, _⟩ ⟨e, he, hv⟩
  rcases h with rfl | rfl | h
  · cases hn
  · cases he
  · exact absurd hv (h e he)

theorem cuts_some {v : Ver} {inc exc : List Net} {e n : Net} (he : e ∈ exc) (hv : e.ver = v) (hn : n ∈ inc) (we : WF e) (wn : WF n)
    (wx : ∀ f ∈ exc, WF f) (h1 : e.subnetOf n = true) (h2 : ∀ f ∈ exc, n.subnetOf f = false) : Cuts v inc exc := by
  intro _ _
  refine ⟨e, he, hv, n, hn, (subnetOf_iff we wn).1 h1, fun f hf h => ?_⟩
  have := (subnetOf_iff wn (wx f hf)).2 fun u x hm => (h u x).1 hm
  rw [h2 f hf] at this
  cases this

theorem nested_of {inc exc : List Net} (wi : ∀ n ∈ inc, WF n) (we : ∀ e ∈ exc, WF e)
    (h : ∀ n ∈ inc, ∀ e ∈ exc, n.subnetOf e = false) : ∀ n ∈ inc, ∀ e ∈ exc, ¬ StrictSub n e := by
  intro n hn e he hs
  have := (subnetOf_iff (wi n hn) (we e he)).2 hs.1
  rw [h n hn e he] at this
  cases this

instance wfDec (n : Net) : Decidable (WF n) :=
  decidable_of_iff (n.plen ≤ n.ver.bits ∧ 2 ^ (n.ver.bits - n.plen) ∣ n.addr ∧ n.addr + 2 ^ (n.ver.bits - n.plen) ≤ 2 ^ n.ver.bits)
    ⟨fun ⟨h1, h2, h3⟩ => ⟨h1, h2, h3⟩, fun h => ⟨h.plen_le, h.aligned, h.range⟩⟩

instance familyOkDec (v : Ver) (t : Term) : Decidable (FamilyOk v t) := by
  unfold FamilyOk
  infer_instance

instance pwfDec (l : List (Nat × Nat)) : Decidable (PWF l) := by
  unfold PWF
  infer_instance

/-- The terms of the case are rendered faithfully. -/
theorem atpFilters_fit (v : Ver) : ∀ f ∈ atpFilters, About f.options v → ∀ a ∈ f.terms, Live a → AtpFits v a := by
  intro f hf hab a ha _
  simp only [atpFilters, List.mem_cons, List.not_mem_nil, or_false] at hf
  rcases hf with rfl | rfl
  · simp only [List.mem_singleton] at ha
    subst ha
    cases v
    · exact absurd hab (by decide)
    · constructor <;> first
        | decide +kernel
        | exact ⟨_, rfl⟩
        | exact nested_of (by decide +kernel) (by decide +kernel) (by decide +kernel)
        | exact cuts_none (by decide +kernel)
        | exact cuts_some (e := ip6 32 24) (n := ip6 32 16) (by decide +kernel) (by decide +kernel) (by decide +kernel) (by decide +kernel)
            (by decide +kernel) (by decide +kernel) (by decide +kernel) (by decide +kernel)
        | exact .inr (by decide +kernel)
  · simp only [List.mem_cons, List.not_mem_nil, or_false] at ha
    cases v <;> rcases ha with rfl | rfl | rfl | rfl | rfl | rfl | rfl
    all_goals constructor <;> first
        | decide +kernel
        | exact ⟨_, rfl⟩
        | exact nested_of (by decide +kernel) (by decide +kernel) (by decide +kernel)
        | exact cuts_none (by decide +kernel)
        | exact cuts_some (e := ip4 10 1 0 0 16) (n := ip4 10 0 0 0 8) (by decide +kernel) (by decide +kernel) (by decide +kernel)
            (by decide +kernel) (by decide +kernel) (by decide +kernel) (by decide +kernel) (by decide +kernel)
        | exact .inr (by decide +kernel)
        | exact .inl ⟨"deny".toList, by decide⟩

/-- The hypotheses of C122_partial hold for the case. -/
example (p : Packet) (hp : Packets p) (bs : List Block) (h : AristaTp.translate atpFilters = .ok bs) (b : Bool) :
    Decides (setsOf bs) (entriesOf (some "tp") [] bs) p b ↔ PolicyDecides (termsOf (some "tp") p.ver atpFilters) p b :=
  C122_partial h atpFilters_names (.inl (by decide +kernel)) hp (fun f hf _ => atpFilters_fit _ f hf) _ (by
    generalize p.ver = v
    cases v <;> decide +kernel) b

/-- So do those of C123_partial and C124_partial, and an entry refers to a field set that was renamed. -/
example (bs : List Block) (h : AristaTp.translate atpFilters = .ok bs) (b : Block) (hb : b ∈ bs) :
    (∀ n v cs as d names s, Out.entry n v cs as ∈ b.items → Cond.fieldSet d names ∈ cs → s ∈ names →
      (∃ k ∈ setsOf bs, k.name = s ∧ k.family = v) ∨
      ∃ f ∈ atpFilters, ∃ a ∈ f.terms, ∃ l ∈ a.term.sourcePrefix ++ a.term.destinationPrefix, s = l.toList) ∧
    (b.items.filterMap entryName).Nodup := by
  have wf : ∀ f ∈ atpFilters, f.here = true → ∀ a ∈ f.terms, (∀ n ∈ a.term.sourceAddress ++ a.term.sourceAddressExclude, WF n) ∧
      ∀ n ∈ a.term.destinationAddress ++ a.term.destinationAddressExclude, WF n := by decide +kernel
  refine ⟨fun n v cs as d names s ho hc hs => ?_, (C124_partial h (by decide +kernel) hb).2.2⟩
  refine C123_partial h atpFilters_names ?_ wf hb ho hc hs
  intro f hf _ a ha u
  simp only [atpFilters, List.mem_cons, List.not_mem_nil, or_false] at hf
  rcases hf with rfl | rfl
  · simp only [List.mem_singleton] at ha
    subst ha
    cases u <;> constructor <;> first
        | exact cuts_none (by decide +kernel)
        | exact cuts_some (e := ip6 32 24) (n := ip6 32 16) (by decide +kernel) (by decide +kernel) (by decide +kernel) (by decide +kernel)
            (by decide +kernel) (by decide +kernel) (by decide +kernel) (by decide +kernel)
  · simp only [List.mem_cons, List.not_mem_nil, or_false] at ha
    cases u <;> rcases ha with rfl | rfl | rfl | rfl | rfl | rfl | rfl
    all_goals constructor <;> first
        | exact cuts_none (by decide +kernel)
        | exact cuts_some (e := ip4 10 1 0 0 16) (n := ip4 10 0 0 0 8) (by decide +kernel) (by decide +kernel) (by decide +kernel)
            (by decide +kernel) (by decide +kernel) (by decide +kernel) (by decide +kernel) (by decide +kernel)

/-- Two blocks, the second with a counter; the first field set is used for both directions. -/
example : (match AristaTp.translate atpFilters with
    | .ok bs => bs.map (fun b => (b.fieldSets.length, b.counters.map String.ofList, b.items.length)) == [(1, [], 1), (1, ["web-hits"], 10)]
    | .error _ => false) = true := by decide +kernel

/-- C125_replaces and C126_partial apply to it. -/
example (bs : List Block) (h : AristaTp.translate atpFilters = .ok bs) (before : List Out) :
    entriesOf (some "tp") before bs = (bs.filter fun b => b.name == some "tp").flatMap Block.items := by
  have hm : ∃ f ∈ atpFilters, f.here = true ∧ f.options.head? = some "tp" := by decide
  obtain ⟨f, hf, hh, e⟩ := hm
  rw [← e, C125_replaces h hf hh, (C126_partial h (.inl (by decide +kernel))).2]

/-! ### policies that are not rendered faithfully -/

/-- C122 is false for a last term that denies everything, unless it is called `default-…`: it is left out. -/
theorem C122_refuted_deny :
    AtpSays [{ options := ["tp", "inet"], terms := [{ term := { name := "deny-all".toList, action := ["deny"] } }] }] "tp"
      (some false) none :=
  atp_says tcpPacket (by decide +kernel)

/-- C122 is false for the option `tcp-initial`: it has no effect. -/
theorem C122_refuted_option :
    AtpSays [{ options := ["tp", "inet"],
               terms := [{ term := { name := "t".toList, action := ["accept"], protocol := ["tcp"], option := ["tcp-initial"] } }] }] "tp"
      none (some true) :=
  atp_says tcpPacket (by decide +kernel)

/-- C122 is false for `established` with TCP and UDP: new connections match, too. -/
theorem C122_refuted_established :
    AtpSays [{ options := ["tp", "inet"],
               terms := [{ term := { name := "t".toList, action := ["accept"], protocol := ["tcp", "udp"], option := ["established"] } }] }]
      "tp" none (some true) :=
  atp_says { tcpPacket with dport := 2000 } (by decide +kernel)

/-- C122 is false for a term for both icmp protocols: it is left out. -/
theorem C122_refuted_icmp :
    AtpSays [{ options := ["tp"], terms := [{ term := { name := "t".toList, action := ["accept"], protocol := ["icmp", "icmpv6"] } }] }]
      "tp" (some true) none :=
  atp_says { proto := "icmp" } (by decide +kernel)

/-- C122 is false for a term with `port`: it is left out. -/
theorem C122_refuted_port :
    AtpSays [{ options := ["tp", "inet"],
               terms := [{ term := { name := "t".toList, action := ["deny"], protocol := ["tcp"], port := [(80, 80)] } }] }]
      "tp" (some false) none :=
  atp_says tcpPacket (by decide +kernel)

/-- C122 is false for a term with a packet length only: it is left out. -/
theorem C122_refuted_length :
    AtpSays [{ options := ["tp", "inet"],
               terms := [{ term := { name := "t".toList, action := ["deny"], packetLength := [100] } }] }]
      "tp" (some false) none :=
  atp_says { tcpPacket with packetLength := 100 } (by decide +kernel)

/-- C122 is false for fragments of IPv6: the term is left out. -/
theorem C122_refuted_fragment :
    AtpSays [{ options := ["tp"],
               terms := [{ term := { name := "t".toList, action := ["deny"], protocol := ["udp"], option := ["is-fragment"] } }] }]
      "tp" (some false) none :=
  atp_says { ver := .v6, proto := "udp", hasOption := fun o => o ∈ ["is-fragment", "fragments", "established", "tcp-established"] }
    (by decide +kernel)

/-- C122 is false for excluded addresses without included ones: they match. -/
theorem C122_refuted_exclude :
    AtpSays [{ options := ["tp", "inet"],
               terms := [{ term := { name := "t".toList, action := ["accept"], protocol := ["tcp"],
                                     destinationAddressExclude := [ip4 10 0 0 0 8] } }] }]
      "tp" none (some true) :=
  atp_says tcpPacket (by decide +kernel)

/-- C122 is false for excluded addresses around included ones: with field sets they match. -/
theorem C122_refuted_around :
    AtpSays [{ options := ["tp", "inet", "field_set"],
               terms := [{ term := { name := "t".toList, action := ["accept"], protocol := ["tcp"],
                                     destinationAddress := [ip4 10 0 0 0 16], destinationAddressExclude := [ip4 10 0 0 0 8] } }] }]
      "tp" none (some true) :=
  atp_says tcpPacket (by decide +kernel)

/-- C122 is false for a default term that is not the last one: it comes last. -/
theorem C122_refuted_default :
    AtpSays [{ options := ["tp", "inet"],
               terms := [{ term := { name := "default-tcp".toList, action := ["deny"], protocol := ["tcp"] } },
                         { term := { name := "web".toList, action := ["accept"], protocol := ["tcp"] } }] }]
      "tp" (some false) (some true) :=
  atp_says tcpPacket (by decide +kernel)

/-- C122 is false for terms of one name in two policies: their field sets become one. -/
theorem C122_refuted_shared :
    AtpSays [{ options := ["a", "inet", "field_set"],
               terms := [{ term := { name := "t".toList, action := ["accept"], destinationAddress := [ip4 11 0 0 0 8] } }] },
             { options := ["b", "inet", "field_set"],
               terms := [{ term := { name := "t".toList, action := ["accept"], destinationAddress := [ip4 10 0 0 0 8] } }] }]
      "a" none (some true) :=
  atp_says tcpPacket (by decide +kernel)

/-- C122 is false if a name begins with another: the field set is renamed to one that is not there. -/
theorem C122_refuted_renamed :
    AtpSays [{ options := ["a", "inet", "field_set"],
               terms := [{ term := { name := "a".toList, action := ["accept"], destinationAddress := [ip4 11 0 0 0 8] } },
                         { term := { name := "b".toList, action := ["accept"], destinationAddress := [ip4 11 0 0 0 8] } },
                         { term := { name := "b-2".toList, action := ["accept"], destinationAddress := [ip4 10 0 0 0 8] } }] }]
      "a" (some true) none :=
  atp_says tcpPacket (by decide +kernel)

/-- C122 and C126 are false for two filters of a policy next to one of another: the second removes what the first has added. -/
theorem C122_refuted_removed :
    AtpSays [{ options := ["a", "inet"], terms := [{ term := { name := "t".toList, action := ["deny"], protocol := ["tcp"] } }] },
             { options := ["a", "inet"], terms := [{ term := { name := "u".toList, action := ["deny"], protocol := ["udp"] } }] },
             { options := ["b", "inet"], terms := [{ term := { name := "v".toList, action := ["deny"], protocol := ["gre"] } }] }]
      "a" (some false) none :=
  atp_says tcpPacket (by decide +kernel)

/-- The tool takes the filters, and an entry names a field set that is neither in the output nor a prefix list. -/
def AtpDangling (fs : List Filter) : Prop :=
  ∃ bs, (∀ f ∈ fs, ∀ a ∈ f.terms, AtpAccepted a.term) ∧ AristaTp.translate fs = .ok bs ∧
    ∃ b ∈ bs, ∃ n v cs as d names s, Out.entry n v cs as ∈ b.items ∧ Cond.fieldSet d names ∈ cs ∧ s ∈ names ∧
      (∀ k ∈ setsOf bs, k.name ≠ s) ∧ ∀ f ∈ fs, ∀ a ∈ f.terms, a.term.sourcePrefix ++ a.term.destinationPrefix = []

/-- The names of field sets in an item. -/
def setNamesIn : Out → List Str
  | .entry _ _ cs _ => cs.flatMap fun c => match c with
    | .fieldSet _ names => names
    | _ => []
  | .verbatim _ => []

theorem atp_dangling {fs : List Filter} (h : (decide (∀ f ∈ fs, ∀ a ∈ f.terms, AtpAccepted a.term ∧
      a.term.sourcePrefix ++ a.term.destinationPrefix = []) &&
    match AristaTp.translate fs with
    | .ok bs => bs.any fun b => b.items.any fun o => (setNamesIn o).any fun s => (setsOf bs).all fun k => !(k.name == s)
    | .error _ => false) = true) : AtpDangling fs := by
  rw [Bool.and_eq_true, decide_eq_true_eq] at h
  obtain ⟨h1, h⟩ := h
  split at h
  next bs hbs =>
    simp only [List.any_eq_true, List.all_eq_true, Bool.not_eq_true', beq_eq_false_iff_ne] at h
    obtain ⟨b, hb, o, ho, s, hs, hk⟩ := h
    cases o with
    | verbatim ls => cases hs
    | entry n v cs as =>
      unfold setNamesIn at hs
      obtain ⟨c, hc, hs⟩ := List.mem_flatMap.1 hs
      cases c <;> simp only [List.not_mem_nil] at hs
      exact ⟨bs, fun f hf a ha => (h1 f hf a ha).1, hbs, b, hb, n, v, cs, as, _, _, s, ho, hc, hs, hk,
        fun f hf a ha => (h1 f hf a ha).2⟩
  · cases h

/-- C123 is false if all included addresses are excluded. -/
theorem C123_refuted_excluded :
    AtpDangling [{ options := ["tp", "inet"],
                   terms := [{ term := { name := "t".toList, action := ["accept"], protocol := ["tcp"],
                                         destinationAddress := [ip4 10 0 0 0 8], destinationAddressExclude := [ip4 10 0 0 0 8] } }] }] :=
  atp_dangling (by decide +kernel)

/-- C123 is false if a name begins with another. -/
theorem C123_refuted_renamed :
    AtpDangling [{ options := ["a", "inet", "field_set"],
                   terms := [{ term := { name := "a".toList, action := ["accept"], destinationAddress := [ip4 11 0 0 0 8] } },
                             { term := { name := "b".toList, action := ["accept"], destinationAddress := [ip4 11 0 0 0 8] } },
                             { term := { name := "b-2".toList, action := ["accept"], destinationAddress := [ip4 10 0 0 0 8] } }] }] :=
  atp_dangling (by decide +kernel)

/-- C124 is false for counters called like field sets: the counter of the entry is renamed, the declared one is not. -/
theorem C124_refuted_renamed : ∃ fs bs, (∀ f ∈ fs, ∀ a ∈ f.terms, AtpAccepted a.term) ∧ AristaTp.translate fs = .ok bs ∧
    ∃ b ∈ bs, ∃ o ∈ b.items, ∃ n v cs as c, o = Out.entry n v cs as ∧ Act.count c ∈ as ∧ c ∉ b.counters := by
  let fs : List Filter := [{
    options := ["a", "inet", "field_set"],
    terms := [{ term := { name := "a".toList, action := ["accept"], destinationAddress := [ip4 11 0 0 0 8] } },
              { term := { name := "b".toList, action := ["accept"], destinationAddress := [ip4 11 0 0 0 8] }, counter := "dst-b" }] }]
  have h : (match AristaTp.translate fs with
    | .ok bs => bs.any fun b => b.items.any fun o => match o with
      | .entry _ _ _ as => as.any fun a => match a with
        | .count c => !b.counters.contains c
        | _ => false
      | .verbatim _ => false
    | .error _ => false) = true := by decide +kernel
  split at h
  next bs hbs =>
    rw [List.any_eq_true] at h
    obtain ⟨b, hb, h⟩ := h
    rw [List.any_eq_true] at h
    obtain ⟨o, ho, h⟩ := h
    cases o with
    | verbatim ls => cases h
    | entry n v cs as =>
      dsimp only at h
      rw [List.any_eq_true] at h
      obtain ⟨x, hx, h⟩ := h
      cases x <;> simp only [Bool.false_eq_true] at h
      exact ⟨fs, bs, by decide +kernel, hbs, b, hb, _, ho, _, _, _, _, _, rfl, hx, by simpa using h⟩
  · cases h

end Verif.Props
