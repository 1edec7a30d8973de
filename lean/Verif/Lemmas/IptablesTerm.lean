import Verif.Lemmas.IptablesRules
import Verif.Lemmas.Keywords

/-!
Lemmas about whole terms of the iptables model.
-/

namespace Verif
namespace Iptables
open Policy Aclgenerator Nacaddr Spec Spec.Nf

/-! ### walking through blocks -/

/-- The rules of a block, in order. -/
theorem acts_walk {chains : Str → List (List Arg)} {e : Host} {p : Packet} {top : Str} {t : Target} {φ : Prop}
    {ls : List Line} (h : Acts e p top t φ ls) (hj : ∀ c, t ≠ .jump c) (hl : t ≠ .log)
    (k : List (List Arg)) :
    (φ → t = .ret → Walk chains e p (rulesOf ls top ++ k) none) ∧
    (φ → ∀ w, t.verdict = some w → Walk chains e p (rulesOf ls top ++ k) (some w)) ∧
    (¬ φ → ∀ v, Walk chains e p k v → Walk chains e p (rulesOf ls top ++ k) v) := by
  obtain ⟨form, hit⟩ := h
  induction ls generalizing φ with
  | nil =>
    have : ¬ φ := by rw [← hit]; simp
    exact ⟨fun h => absurd h this, fun h => absurd h this, fun _ v hv => hv⟩
  | cons l ls ih =>
    obtain ⟨args, ms, u, rfl, hp, hu⟩ := form l List.mem_cons_self
    have hr : rulesOf (.rule top args :: ls) top ++ k = args :: (rulesOf ls top ++ k) := by simp [rulesOf]
    rw [hr]
    have ih := ih (φ := ∃ args ms, Line.rule top args ∈ ls ∧ parse args = some (ms, t) ∧ All e p ms)
      (fun l hl => form l (List.mem_cons_of_mem _ hl)) Iff.rfl
    rcases hu with rfl | rfl
    · -- a log rule
      have hφ : φ ↔ ∃ args ms, Line.rule top args ∈ ls ∧ parse args = some (ms, t) ∧ All e p ms := by
        rw [← hit]
        constructor
        · rintro ⟨a, m, hm, hp', ha⟩
          rcases List.mem_cons.1 hm with hm | hm
          · rw [Line.rule.injEq] at hm
            rw [hm.2, hp] at hp'
            cases hp'
            exact absurd rfl hl
          · exact ⟨a, m, hm, hp', ha⟩
        · rintro ⟨a, m, hm, r⟩; exact ⟨a, m, List.mem_cons_of_mem _ hm, r⟩
      have pass : ∀ v, Walk chains e p (rulesOf ls top ++ k) v → Walk chains e p (args :: (rulesOf ls top ++ k)) v := by
        intro v hv
        rcases Classical.em (All e p ms) with ha | ha
        · exact .log hp ha hv
        · exact .skip hp ha hv
      rw [hφ]
      exact ⟨fun h ht => pass _ (ih.1 h ht), fun h w hw => pass _ (ih.2.1 h w hw), fun h v hv => pass _ (ih.2.2 h v hv)⟩
    · rcases Classical.em (All e p ms) with ha | ha
      · have hφ : φ := hit.1 ⟨args, ms, List.mem_cons_self, hp, ha⟩
        refine ⟨fun _ ht => ?_, fun _ w hw => .hit hp ha hw, fun h => absurd hφ h⟩
        subst ht
        exact .ret hp ha
      · have hφ : φ ↔ ∃ args ms, Line.rule top args ∈ ls ∧ parse args = some (ms, u) ∧ All e p ms := by
          rw [← hit]
          constructor
          · rintro ⟨a, m, hm, hp', ha'⟩
            rcases List.mem_cons.1 hm with hm | hm
            · rw [Line.rule.injEq] at hm
              rw [hm.2, hp] at hp'
              cases hp'
              exact absurd ha' ha
            · exact ⟨a, m, hm, hp', ha'⟩
          · rintro ⟨a, m, hm, r⟩; exact ⟨a, m, List.mem_cons_of_mem _ hm, r⟩
        rw [hφ]
        exact ⟨fun h ht => .skip hp ha (ih.1 h ht), fun h w hw => .skip hp ha (ih.2.1 h w hw),
          fun h v hv => .skip hp ha (ih.2.2 h v hv)⟩

/-- Traversal has one outcome. -/
theorem walk_unique {chains : Str → List (List Arg)} {e : Host} {p : Packet} {rs : List (List Arg)} {v w : Option Verdict}
    (h : Walk chains e p rs v) : Walk chains e p rs w → v = w := by
  induction h generalizing w with
  | done => intro k; cases k; rfl
  | skip hp hn _ ih =>
    intro k
    cases k with
    | skip _ _ k => exact ih k
    | hit hq ha _ => rw [hp] at hq; cases hq; exact absurd ha hn
    | ret hq ha => rw [hp] at hq; cases hq; exact absurd ha hn
    | log hq ha _ => rw [hp] at hq; cases hq; exact absurd ha hn
    | call hq ha _ => rw [hp] at hq; cases hq; exact absurd ha hn
    | back hq ha _ _ => rw [hp] at hq; cases hq; exact absurd ha hn
  | hit hp ha hv =>
    intro k
    cases k with
    | skip hq hn _ => rw [hp] at hq; cases hq; exact absurd ha hn
    | hit hq _ hw => rw [hp] at hq; cases hq; rw [hv] at hw; exact hw
    | ret hq _ => rw [hp] at hq; cases hq; cases hv
    | log hq _ _ => rw [hp] at hq; cases hq; cases hv
    | call hq _ _ => rw [hp] at hq; cases hq; cases hv
    | back hq _ _ _ => rw [hp] at hq; cases hq; cases hv
  | ret hp ha =>
    intro k
    cases k with
    | skip hq hn _ => rw [hp] at hq; cases hq; exact absurd ha hn
    | hit hq _ hw => rw [hp] at hq; cases hq; cases hw
    | ret hq _ => rfl
    | log hq _ _ => rw [hp] at hq; cases hq
    | call hq _ _ => rw [hp] at hq; cases hq
    | back hq _ _ _ => rw [hp] at hq; cases hq
  | log hp ha _ ih =>
    intro k
    cases k with
    | skip hq hn _ => rw [hp] at hq; cases hq; exact absurd ha hn
    | hit hq _ hw => rw [hp] at hq; cases hq; cases hw
    | ret hq _ => rw [hp] at hq; cases hq
    | log hq _ k => exact ih k
    | call hq _ _ => rw [hp] at hq; cases hq
    | back hq _ _ _ => rw [hp] at hq; cases hq
  | call hp ha _ ih =>
    intro k
    cases k with
    | skip hq hn _ => rw [hp] at hq; cases hq; exact absurd ha hn
    | hit hq _ hw => rw [hp] at hq; cases hq; cases hw
    | ret hq _ => rw [hp] at hq; cases hq
    | log hq _ k => rw [hp] at hq; cases hq
    | call hq _ k => rw [hp] at hq; cases hq; exact ih k
    | back hq _ k _ => rw [hp] at hq; cases hq; cases ih k
  | back hp ha _ _ ih1 ih2 =>
    intro k
    cases k with
    | skip hq hn _ => rw [hp] at hq; cases hq; exact absurd ha hn
    | hit hq _ hw => rw [hp] at hq; cases hq; cases hw
    | ret hq _ => rw [hp] at hq; cases hq
    | log hq _ k => rw [hp] at hq; cases hq
    | call hq _ k => rw [hp] at hq; cases hq; cases ih1 k
    | back hq _ _ k => rw [hp] at hq; cases hq; exact ih2 k

/-! ### addresses -/

theorem addrArgs_says {e : Host} {p : Packet} {x : Ctx} {source : Bool} {n : Net} (hw : WF n) (hv : n.ver = x.af)
    (hp : p.ver = x.af) (hset : (if source then x.srcSet else x.dstSet) = none)
    (hx : (if source then p.src else p.dst) < 2 ^ x.af.bits) :
    Says e p (addrArgs x source (some n)) (Mem n x.af (if source then p.src else p.dst)) := by
  unfold addrArgs
  dsimp only
  split
  next he =>
    rw [hset]
    refine says_nil.congr ?_
    have := (eqv_iff hw (allIps_wf _)).1 he
    simp only [block, allIps, Prod.mk.injEq] at this
    obtain ⟨_, h2, h3⟩ := this
    constructor
    · intro _
      refine ⟨hv, by rw [h2]; exact Nat.zero_le _, ?_⟩
      rw [h2, h3, hv]
      simpa using hx
    · intro _; trivial
  next he =>
    cases source with
    | true =>
      refine (says_of (m := .src n.ver n.addr n.plen) (seg_one (by decide) rfl)).congr ?_
      rw [Cisco.mem_iff_div hw]
      simp only [Match.Holds, hp, hv, true_and, if_true]
    | false =>
      refine (says_of (m := .dst n.ver n.addr n.plen) (seg_one (by decide) rfl)).congr ?_
      rw [Cisco.mem_iff_div hw]
      simp only [Match.Holds, hp, hv, true_and, Bool.false_eq_true, if_false]

theorem addrArgs_set {e : Host} {p : Packet} {x : Ctx} {source : Bool} {s : Str} {l : List Net}
    (hset : (if source then x.srcSet else x.dstSet) = some s) (hl : e.sets s = some l) :
    Says e p (addrArgs x source (some (allIps x.af))) (Den l p.ver (if source then p.src else p.dst)) := by
  unfold addrArgs
  dsimp only
  rw [if_pos ((eqv_iff (allIps_wf _) (allIps_wf _)).2 rfl), hset]
  dsimp only
  cases source with
  | true =>
    refine (says_of (m := .srcSet s) (seg_set rfl)).congr ?_
    simp [Match.Holds, hl]
  | false =>
    refine (says_of (m := .dstSet s) (seg_set rfl)).congr ?_
    simp [Match.Holds, hl]

/-! ### protocols -/

/-- The protocol text of a term object. -/
def protoText (s : String) : String := (protoNumber (.str s)).text

theorem holds_proto {e : Host} {p : Packet} {s : String} : (Match.proto s).Holds e p ↔
    (s = "all" ∨ s = "0" ∨ s = p.proto ∨ (s = "ipv6-icmp" ∧ p.proto = "icmpv6") ∨
      ∃ a ∈ iana, a.1 = p.proto ∧ s = toString a.2) := by
  unfold Match.Holds
  constructor
  · rintro (h | h | h | h | ⟨k, h, e⟩)
    · exact .inl h
    · exact .inr (.inl h)
    · exact .inr (.inr (.inl h))
    · exact .inr (.inr (.inr (.inl h)))
    · exact .inr (.inr (.inr (.inr ⟨_, h, rfl, e⟩)))
  · rintro (h | h | h | h | ⟨⟨q, k⟩, h, hq, e⟩)
    · exact .inl h
    · exact .inr (.inl h)
    · exact .inr (.inr (.inl h))
    · exact .inr (.inr (.inr (.inl h)))
    · dsimp only at hq e
      subst hq
      exact .inr (.inr (.inr (.inr ⟨k, h, e⟩)))

theorem proto_table : ∀ s ∈ iana.map Prod.fst, ∀ q ∈ iana.map Prod.fst,
    ((protoWord (protoText s) = "all" ∨ protoWord (protoText s) = "0" ∨ protoWord (protoText s) = q ∨
      (protoWord (protoText s) = "ipv6-icmp" ∧ q = "icmpv6") ∨
      ∃ a ∈ iana, a.1 = q ∧ protoWord (protoText s) = toString a.2) ↔ q = s) := by
  decide +kernel

theorem protoText_special : ∀ s ∈ iana.map Prod.fst, (protoText s = "hopopt" ↔ s = "hopopt") ∧
    (protoText s = "fragment" ↔ s = "fragment") ∧ (protoText s = "icmpv6" ↔ s = "icmpv6") ∧
    (protoText s = "icmp" ↔ s = "icmp") ∧ (protoText s = "tcp" ↔ s = "tcp") ∧ (protoText s = "udp" ↔ s = "udp") ∧
    protoText s ≠ "" ∧ protoText s ≠ "all" := by
  decide +kernel

/-- A protocol argument and the options that go with it. -/
theorem proto_says {e : Host} {p : Packet} {s : String} (hs : s ∈ iana.map Prod.fst) (hp : p.proto ∈ iana.map Prod.fst)
    (h6 : s = "hopopt" ∨ s = "fragment" → p.ver = .v6) :
    ∃ P, Says e p (protoArgs (protoText s)) P ∧ ((P ∧ u32Cond e p (protoText s)) ↔ p.proto = s) := by
  obtain ⟨h1, h2, _, _, _, _, h3, _⟩ := protoText_special s hs
  unfold protoArgs
  split
  next hc =>
    refine ⟨True, says_nil, ?_⟩
    rw [true_and]
    unfold u32Cond
    rcases hc with hc | hc | hc
    · exact absurd hc h3
    · have hs' := h1.1 hc
      rw [hc, hs']
      simp [Match.Holds, h6 (.inl hs')]
    · have hs' := h2.1 hc
      rw [hc, hs']
      simp [Match.Holds, h6 (.inr hs')]
  next hc =>
    rw [not_or, not_or] at hc
    refine ⟨_, says_of (m := .proto (protoWord (protoText s))) (seg_one (by decide) rfl), ?_⟩
    unfold u32Cond
    rw [holds_proto, proto_table s hs _ hp]
    simp [hc.2.1, hc.2.2]

/-! ### icmp -/

theorem icmpTypes_spec {t : Term} {protocol : List String} {af : Ver} {types : List (Option Nat)}
    (h : icmpTypes t protocol af = .ok types) (p : Packet) :
    ((∃ ty ∈ types, ∀ k, ty = some k → (p.icmpType, k) ∈ Spec.icmpNumbers af) ↔ OneOf t.icmpType p.icmpType) ∧
    (t.icmpType = [] → types = [none]) ∧
    (t.icmpType ≠ [] → none ∉ types ∧
      ((af = .v4 ∧ protocol = ["icmp"]) ∨ (af = .v6 ∧ protocol = ["icmpv6"]))) := by
  unfold icmpTypes at h
  split at h
  next h0 =>
    cases h
    have h0' := List.isEmpty_iff.1 h0
    exact ⟨⟨fun _ => .inl h0', fun _ => ⟨none, List.mem_singleton.2 rfl, fun k e => by cases e⟩⟩,
      fun _ => rfl, fun h => absurd h0' h⟩
  next h0 =>
    have h0' : t.icmpType ≠ [] := by simpa using h0
    obtain ⟨tbl, hc, hk, nums, rfl, _, hp⟩ := (Props.C34_types h0' types).1 h
    have hn : (normalizeAf (.name (if af = .v6 then "inet6" else "inet")) = .ok 4 ↔ af = .v4) ∧
        (normalizeAf (.name (if af = .v6 then "inet6" else "inet")) = .ok 6 ↔ af = .v6) := by
      cases af <;> decide
    have hpa : (af = .v4 ∧ protocol = ["icmp"]) ∨ (af = .v6 ∧ protocol = ["icmpv6"]) := by
      rcases hc with ⟨a, b, _⟩ | ⟨a, b, _⟩
      · exact .inl ⟨hn.1.1 a, b⟩
      · exact .inr ⟨hn.2.1 a, b⟩
    have ht : tbl = Spec.icmpNumbers af := by
      rcases hc with ⟨a, _, rfl⟩ | ⟨a, _, rfl⟩
      · rw [hn.1.1 a]; rfl
      · rw [hn.2.1 a]; rfl
    have hn1 : (tbl.map Prod.fst).Nodup := by
      rw [ht]; cases af
      · exact Cisco.icmp_nodup.1
      · exact Cisco.icmp_nodup.2.1
    have hn2 : ∀ a b n, tbl.lookup a = some n → tbl.lookup b = some n → a = b := by
      rw [ht]; cases af
      · exact Props.C34_injective.1
      · exact Props.C34_injective.2
    refine ⟨?_, fun h => absurd h h0', fun _ => ⟨by simp, hpa⟩⟩
    rw [← ht]
    constructor
    · rintro ⟨ty, hty, hk'⟩
      obtain ⟨n, hn', rfl⟩ := List.mem_map.1 hty
      obtain ⟨x, hx, hl⟩ := List.mem_filterMap.1 (hp.mem_iff.1 hn')
      rw [hn2 _ _ _ (Cisco.lookup_of_mem hn1 (hk' n rfl)) hl]
      exact .inr hx
    · rintro (h | h)
      · exact absurd h h0'
      · obtain ⟨n, hl⟩ := hk _ h
        refine ⟨some n, List.mem_map.2 ⟨n, hp.mem_iff.2 (List.mem_filterMap.2 ⟨_, h, hl⟩), rfl⟩, fun k e => ?_⟩
        cases e
        exact Cisco.mem_of_lookup' hl


/-- The argument for icmp, for one type and code of a term. -/
theorem icmpArgs_says {e : Host} {p : Packet} {t : Term} {protocol : List String} {af : Ver} {types : List (Option Nat)}
    (h : icmpTypes t protocol af = .ok types) (hc : t.icmpCode ≠ [] → t.icmpType ≠ []) (h0 : 0 ∉ t.icmpCode)
    {i c : Option Nat} {s : String} (hi : i ∈ types) (hcm : c ∈ icmpCodes t) (hs : s ∈ protocol) :
    Says e p (icmpArgs s i c) ((∀ k, i = some k → p.proto = s ∧ (p.icmpType, k) ∈ Spec.icmpNumbers af) ∧
      ∀ k, c = some k → p.icmpCode = k) := by
  obtain ⟨_, h1, h2⟩ := icmpTypes_spec h p
  have hc0 : (if c = some 0 then none else c) = c := by
    rw [if_neg]
    rintro rfl
    unfold icmpCodes at hcm
    split at hcm
    · simp at hcm
    · simp at hcm; exact h0 hcm
  unfold icmpArgs
  dsimp only
  rw [hc0]
  by_cases ht : t.icmpType = []
  · have hi' := List.mem_singleton.1 (h1 ht ▸ hi)
    have hcode : t.icmpCode = [] := Classical.byContradiction fun h => hc h ht
    have hc' : c = none := by
      unfold icmpCodes at hcm
      rw [hcode] at hcm
      simpa using hcm
    rw [hi', hc']
    exact says_nil.congr (by simp)
  · obtain ⟨hn, hpr⟩ := h2 ht
    cases i with
    | none => exact absurd hi hn
    | some k =>
      dsimp only
      rcases hpr with ⟨rfl, rfl⟩ | ⟨rfl, rfl⟩
      · have hs' := List.mem_singleton.1 hs
        subst hs'
        rw [if_neg (by decide)]
        refine (says_of (m := .icmp k c) (seg_one (by decide) rfl)).congr ?_
        simp only [Match.Holds, Option.some.injEq, forall_eq']
        rw [and_assoc]
        rfl
      · have hs' := List.mem_singleton.1 hs
        subst hs'
        rw [if_pos rfl]
        refine (says_of (m := .icmp6 k c) (seg_ext rfl (by simp))).congr ?_
        simp only [Match.Holds, Option.some.injEq, forall_eq']
        rw [and_assoc]
        rfl

theorem icmpCodes_spec {t : Term} {p : Packet} :
    (∃ c ∈ icmpCodes t, ∀ k, c = some k → p.icmpCode = k) ↔ OneOf t.icmpCode p.icmpCode := by
  unfold icmpCodes OneOf
  split
  next h => simp [List.isEmpty_iff.1 h]
  next h =>
    have hne : t.icmpCode ≠ [] := by simpa using h
    constructor
    · rintro ⟨c, hc, hk⟩
      obtain ⟨a, ha, rfl⟩ := List.mem_map.1 hc
      rw [hk a rfl]
      exact .inr ha
    · rintro (h | h)
      · exact absurd h hne
      · exact ⟨_, List.mem_map.2 ⟨_, h, rfl⟩, fun k e => by cases e; rfl⟩

/-! ### options -/

/-- The words an option of a term can be. -/
def optionWords : List String :=
  ["established", "first-fragment", "initial", "sample", "tcp-established", "tcp-initial", "syn", "ack", "fin", "rst", "urg",
   "psh", "all", "none"]

/-- The options that stand for flags. -/
def flagWords : List String := ["syn", "ack", "fin", "rst", "urg", "psh", "all"]

/-- The arguments of an option. -/
def optArgs (track : Bool) (o : String) : List (List Arg) :=
  (if track = true ∧ (o = "established" ∨ o = "tcp-established") then
    [[.w "-m", .w "state", .w "--state", .list ["ESTABLISHED", "RELATED"]]] else []) ++ knownOption o

/-- The flags of an option. -/
def optFlags (o : String) : List String := (flagTable.filter fun e => startsWith e.1 o).map Prod.snd

/-- The condition of the arguments of an option. -/
def optCond (e : Host) (p : Packet) (track : Bool) (o : String) : Prop :=
  (track = true → o = "established" ∨ o = "tcp-established" → e.state ∈ ["ESTABLISHED", "RELATED"]) ∧
  (o = "first-fragment" → (Match.u32 "4&0x3FFF=0x2000").Holds e p) ∧
  (o = "initial" ∨ o = "tcp-initial" → Match.syn.Holds e p)

theorem estWords : ∀ o ∈ optionWords,
    ((startsWith "established" o || startsWith "tcp-established" o) = true ↔ o = "established" ∨ o = "tcp-established") ∧
    (startsWith "tcp-established" o = true ↔ o = "tcp-established") := by
  decide +kernel

theorem optArgs_says {e : Host} {p : Packet} {track : Bool} {o : String} (ho : o ∈ optionWords) :
    Says e p (optArgs track o).flatten (optCond e p track o) := by
  unfold optArgs optCond
  rw [List.flatten_append]
  refine says_append (φ := track = true → o = "established" ∨ o = "tcp-established" → e.state ∈ ["ESTABLISHED", "RELATED"])
    ?_ ?_
  · split
    next h =>
      refine (says_of (m := .state ["ESTABLISHED", "RELATED"]) (seg_ext rfl (by simp))).congr ?_
      simp [Match.Holds, h]
    next h =>
      refine says_nil.congr ⟨fun _ h1 h2 => absurd ⟨h1, h2⟩ h, fun _ => trivial⟩
  · unfold knownOption
    split
    · exact (says_of (m := .u32 "4&0x3FFF=0x2000") (seg_ext rfl (by simp))).congr (by simp)
    · exact (says_of (m := .syn) seg_syn).congr (by simp)
    · exact (says_of (m := .syn) seg_syn).congr (by simp)
    · exact says_nil.congr (by simp)
    next h1 h2 h3 h4 =>
      refine says_nil.congr ⟨fun _ => ⟨fun h => (h1 h).elim, fun h => h.elim (fun h => (h2 h).elim) (fun h => (h3 h).elim)⟩,
        fun _ => trivial⟩

/-- The result of the loop over the options. -/
theorem optLoop_spec {track : Bool} {protocol : List String} (opts : List String) :
    ∀ {st o : OState}, (∀ w ∈ opts, w ∈ optionWords) → optLoop track protocol opts st = .ok o →
      o.options = st.options ++ opts.flatMap (optArgs track) ∧ o.tcpFlags = st.tcpFlags ++ opts.flatMap optFlags ∧
      ("tcp-established" ∈ opts → protocol = ["tcp"]) ∧
      o.track = if track = false ∧ protocol = ["tcp"] ∧ ("established" ∈ opts ∨ "tcp-established" ∈ opts) then
        [(["ACK"], ["ACK"]), (["SYN", "FIN", "ACK", "RST"], ["RST"])] else st.track := by
  induction opts with
  | nil =>
    intro st o _ h
    cases h
    simp
  | cons w ws ih =>
    intro st o hw h
    rw [optLoop] at h
    obtain ⟨st1, h1, h2⟩ := bind_ok h
    unfold optStep at h1
    obtain ⟨st2, h3, h4⟩ := bind_ok h1
    cases h4
    obtain ⟨i1, i2, i3, i4⟩ := ih (fun x hx => hw x (List.mem_cons_of_mem _ hx)) h2
    obtain ⟨e1, e2⟩ := estWords w (hw w List.mem_cons_self)
    dsimp only at i1 i2 i4
    have key : st2.options = st.options ++ (if track = true ∧ (w = "established" ∨ w = "tcp-established") then
          [[.w "-m", .w "state", .w "--state", .list ["ESTABLISHED", "RELATED"]]] else []) ∧
        st2.tcpFlags = st.tcpFlags ∧ (w = "tcp-established" → protocol = ["tcp"]) ∧
        st2.track = if track = false ∧ protocol = ["tcp"] ∧ (w = "established" ∨ w = "tcp-established") then
          [(["ACK"], ["ACK"]), (["SYN", "FIN", "ACK", "RST"], ["RST"])] else st.track := by
      unfold estStep at h3
      split at h3
      next hc =>
        have hc := e1.1 hc
        split at h3
        · cases h3
        next hn =>
          rw [Bool.and_eq_true, e2] at hn
          have h5 : w = "tcp-established" → protocol = ["tcp"] := by
            intro hh
            refine Classical.byContradiction fun hne => hn ⟨hh, by simpa using hne⟩
          split at h3
          next ht =>
            cases h3
            simp [ht, hc]
            exact h5
          next ht =>
            split at h3
            next hp => cases h3; simp [ht, hc, hp]
            next hp => cases h3; simp [ht, hp]; exact fun h => hp (h5 h)
      next hc =>
        rw [e1] at hc
        cases h3
        refine ⟨by simp [hc], rfl, fun h => absurd (.inr h) hc, by simp [hc]⟩
    obtain ⟨k1, k2, k3, k4⟩ := key
    refine ⟨?_, ?_, ?_, ?_⟩
    · rw [i1, k1, List.flatMap_cons]
      simp only [optArgs, List.append_assoc]
    · rw [i2, k2, List.flatMap_cons, List.append_assoc]
      rfl
    · intro hm
      rcases List.mem_cons.1 hm with hm | hm
      · exact k3 hm.symm
      · exact i3 hm
    · rw [i4, k4]
      by_cases ht : track = false
      · by_cases hp : protocol = ["tcp"]
        · simp only [ht, hp, true_and, List.mem_cons]
          by_cases ha : "established" ∈ ws ∨ "tcp-established" ∈ ws
          · rw [if_pos ha, if_pos (ha.elim (fun h => .inl (.inr h)) (fun h => .inr (.inr h)))]
          · rw [if_neg ha]
            rw [not_or] at ha
            simp only [ha.1, ha.2, or_false, eq_comm]
        · simp [hp]
      · simp [ht]

theorem mem_sortedSet {l : List String} {x : String} : x ∈ sortedSet l ↔ x ∈ l := by
  unfold sortedSet
  rw [mem_isort, List.mem_eraseDups]

theorem optArgs_all {e : Host} {p : Packet} {track : Bool} (opts : List String) (h : ∀ w ∈ opts, w ∈ optionWords) :
    Says e p (opts.flatMap (optArgs track)).flatten (∀ o ∈ opts, optCond e p track o) := by
  induction opts with
  | nil => exact says_nil.congr (by simp)
  | cons w ws ih =>
    rw [List.flatMap_cons, List.flatten_append]
    exact (says_append (optArgs_says (h w List.mem_cons_self)) (ih fun x hx => h x (List.mem_cons_of_mem _ hx))).congr
      (by simp)

theorem spanOpts_says {e : Host} {p : Packet} (t : Term) (h6 : p.ver = .v6 → t.fragmentOffset = []) :
    Says e p (spanOpts t).flatten (RangeMatch t.packetLength p.packetLength ∧ RangeMatch t.fragmentOffset p.fragmentOffset) := by
  unfold spanOpts
  rw [List.flatten_append]
  refine says_append ?_ ?_
  · split
    next h => exact says_nil.congr (by simp [RangeMatch, List.isEmpty_iff.1 h])
    next h => exact says_of (m := .length t.packetLength) (seg_ext rfl (by simp))
  · split
    next h => exact says_nil.congr (by simp [RangeMatch, List.isEmpty_iff.1 h])
    next h =>
      have hv : p.ver = .v4 := by
        cases hv : p.ver with
        | v4 => rfl
        | v6 => exact absurd (List.isEmpty_iff.2 (h6 hv)) h
      refine (says_of (m := .u32Range "4&0x1FFF=" t.fragmentOffset) (seg_ext rfl (by simp))).congr ?_
      simp [Match.Holds, hv]

/-- The condition of the flags of a rule. -/
def flagCond (e : Host) (p : Packet) (tf : List String) (k : List String × List String) : Prop :=
  (tf = [] ∧ k.1 = []) ∨ (Match.flags (sortedSet (tf ++ k.1)) (sortedSet (tf ++ k.2))).Holds e p

theorem flagArgs_says {e : Host} {p : Packet} (tf : List String) (k : List String × List String) :
    Says e p (flagArgs tf k) (flagCond e p tf k) := by
  unfold flagArgs flagCond
  split
  next h =>
    rw [Bool.and_eq_true, List.isEmpty_iff, List.isEmpty_iff] at h
    exact says_nil.congr (by simp [h])
  next h =>
    rw [Bool.and_eq_true, List.isEmpty_iff, List.isEmpty_iff] at h
    exact (says_of (m := .flags (sortedSet (tf ++ k.1)) (sortedSet (tf ++ k.2))) seg_flags).congr (by simp [h])

theorem optFlags_table : ∀ o ∈ optionWords, (∀ f ∈ tcpFlags, (f.1 ∈ optFlags o ↔ o = f.2)) ∧
    ("ALL" ∈ optFlags o ↔ o = "all") ∧ (optFlags o = [] ↔ o ∉ flagWords ∧ o ≠ "none") := by
  decide +kernel

theorem mem_optFlags {opts : List String} (ho : ∀ w ∈ opts, w ∈ optionWords) :
    (∀ f ∈ tcpFlags, (f.1 ∈ opts.flatMap optFlags ↔ f.2 ∈ opts)) ∧ ("ALL" ∈ opts.flatMap optFlags ↔ "all" ∈ opts) ∧
    (opts.flatMap optFlags = [] ↔ ∀ o ∈ opts, o ∉ flagWords ∧ o ≠ "none") := by
  refine ⟨fun f hf => ?_, ?_, ?_⟩
  · rw [List.mem_flatMap]
    constructor
    · rintro ⟨o, h1, h2⟩
      rw [← ((optFlags_table o (ho o h1)).1 f hf).1 h2]; exact h1
    · intro h
      exact ⟨_, h, ((optFlags_table _ (ho _ h)).1 f hf).2 rfl⟩
  · rw [List.mem_flatMap]
    constructor
    · rintro ⟨o, h1, h2⟩
      rw [← (optFlags_table o (ho o h1)).2.1.1 h2]; exact h1
    · intro h
      exact ⟨_, h, (optFlags_table _ (ho _ h)).2.1.2 rfl⟩
  · rw [List.flatMap_eq_nil_iff]
    exact forall_congr' fun o => forall_congr' fun h => (optFlags_table o (ho o h)).2.2

/-- The flags of a term without flags for established connections. -/
theorem flagCond_plain {e : Host} {p : Packet} {opts : List String} (ho : ∀ w ∈ opts, w ∈ optionWords)
    (hn : "none" ∉ opts) (hall : p.hasOption "all" = true ↔ ∀ f ∈ tcpFlags, p.hasOption f.2 = true)
    (htcp : (∃ o ∈ opts, o ∈ flagWords) → p.proto = "tcp") :
    flagCond e p (opts.flatMap optFlags) ([], []) ↔ ∀ o ∈ opts, o ∈ flagWords → p.hasOption o = true := by
  obtain ⟨m1, m2, m3⟩ := mem_optFlags ho
  unfold flagCond
  rw [m3]
  dsimp only
  simp only [List.append_nil, and_true, Match.Holds, mem_sortedSet]
  constructor
  · rintro (h | ⟨_, h⟩) o ho' hf
    · exact absurd hf (h o ho').1
    · by_cases ha : o = "all"
      · subst ha
        rw [hall]
        intro f hf'
        exact (h f hf' (.inr (m2.2 ho'))).2 (.inr (m2.2 ho'))
      · have : ∃ f ∈ tcpFlags, f.2 = o := by
          have : ∀ o ∈ flagWords, o ≠ "all" → ∃ f ∈ tcpFlags, f.2 = o := by decide
          exact this o hf ha
        obtain ⟨f, hf', rfl⟩ := this
        have := (m1 f hf').2 ho'
        exact (h f hf' (.inl this)).2 (.inl this)
  · intro h
    by_cases hx : ∃ o ∈ opts, o ∈ flagWords
    · refine .inr ⟨htcp hx, fun f hf hm => iff_of_true ?_ hm⟩
      rcases hm with hm | hm
      · refine h _ ((m1 f hf).1 hm) ?_
        have : ∀ f ∈ tcpFlags, f.2 ∈ flagWords := by decide
        exact this f hf
      · exact hall.1 (h _ (m2.1 hm) (by decide)) f hf
    · refine .inl fun o ho' => ⟨fun hf => hx ⟨o, ho', hf⟩, ?_⟩
      rintro rfl
      exact hn ho'

/-- Flags for established connections and no others. -/
theorem flagCond_est {e : Host} {p : Packet} (hp : p.proto = "tcp") :
    (flagCond e p [] (["ACK"], ["ACK"]) ∨ flagCond e p [] (["SYN", "FIN", "ACK", "RST"], ["RST"])) ↔
      (p.hasOption "ack" = true ∨
        (p.hasOption "rst" = true ∧ p.hasOption "syn" = false ∧ p.hasOption "fin" = false)) := by
  unfold flagCond
  simp only [List.nil_append, Match.Holds, mem_sortedSet, hp, tcpFlags, true_and, List.mem_cons, List.not_mem_nil, or_false,
    forall_eq_or_imp, forall_eq]
  cases p.hasOption "ack" <;> cases p.hasOption "rst" <;> cases p.hasOption "syn" <;> cases p.hasOption "fin" <;> simp

/-- The conditions of the options together are what the options mean. -/
theorem options_mean {track : Bool} {e : Host} {p : Packet} {opts protocol : List String}
    {tr : List (List String × List String)} (hs : Sound track e p)
    (ho : ∀ w ∈ opts, w ∈ optionWords) (hn : "none" ∉ opts)
    (hflag : (∃ o ∈ opts, o ∈ flagWords ∨ o = "initial" ∨ o = "tcp-initial") → protocol = ["tcp"])
    (hest : track = false → "established" ∈ opts ∨ "tcp-established" ∈ opts →
      (protocol = ["tcp"] ∧ ∀ o ∈ opts, o ∉ flagWords) ∨ (protocol ≠ [] ∧ ∀ s ∈ protocol, s = "udp"))
    (hff : p.ver = .v6 → "first-fragment" ∉ opts) (htcp : "tcp-established" ∈ opts → protocol = ["tcp"])
    (htr : tr = if track = false ∧ protocol = ["tcp"] ∧ ("established" ∈ opts ∨ "tcp-established" ∈ opts) then
      [(["ACK"], ["ACK"]), (["SYN", "FIN", "ACK", "RST"], ["RST"])] else [])
    (hone : OneOf protocol p.proto) :
    ((∃ k ∈ (if tr.isEmpty then [([], [])] else tr), flagCond e p (opts.flatMap optFlags) k) ∧
      ∀ o ∈ opts, optCond e p track o) ↔ ∀ o ∈ opts, p.hasOption o = true := by
  have tcp : protocol = ["tcp"] → p.proto = "tcp" := by
    rintro rfl
    rcases hone with h | h
    · cases h
    · exact List.mem_singleton.1 h
  have syn : ∀ o ∈ opts, o = "initial" ∨ o = "tcp-initial" → (Match.syn.Holds e p ↔ p.hasOption o = true) := by
    intro o ho' h
    have ht := tcp (hflag ⟨o, ho', .inr h⟩)
    rw [hs.initial o (by simpa using h) ht]
    simp [Match.Holds, ht]
  have ff : "first-fragment" ∈ opts →
      ((Match.u32 "4&0x3FFF=0x2000").Holds e p ↔ p.hasOption "first-fragment" = true) := by
    intro h
    have hv : p.ver = .v4 := by
      cases hv : p.ver with
      | v4 => rfl
      | v6 => exact absurd h (hff hv)
    simp [Match.Holds, hv]
  have cases14 : ∀ o ∈ optionWords, o = "established" ∨ o = "tcp-established" ∨ o = "first-fragment" ∨
      (o = "initial" ∨ o = "tcp-initial") ∨ o = "sample" ∨ o ∈ flagWords ∨ o = "none" := by decide
  by_cases hc : track = false ∧ protocol = ["tcp"] ∧ ("established" ∈ opts ∨ "tcp-established" ∈ opts)
  · rw [if_pos hc] at htr
    have hnf : ∀ o ∈ opts, o ∉ flagWords := by
      rcases hest hc.1 hc.2.2 with h | ⟨_, h⟩
      · exact h.2
      · rw [hc.2.1] at h
        exact absurd (h "tcp" (by simp)) (by decide)
    have htf : opts.flatMap optFlags = [] :=
      (mem_optFlags ho).2.2.2 fun o ho' => ⟨hnf o ho', fun h => hn (h ▸ ho')⟩
    have ht := tcp hc.2.1
    rw [htr, htf]
    simp only [List.isEmpty_cons, Bool.false_eq_true, if_false, List.mem_cons, List.not_mem_nil, or_false, exists_eq_or_imp,
      exists_eq_left]
    rw [flagCond_est ht]
    constructor
    · rintro ⟨h1, h2⟩ o ho'
      obtain ⟨c1, c2, c3⟩ := h2 o ho'
      rcases cases14 o (ho o ho') with rfl | rfl | rfl | h | rfl | h | rfl
      · exact (hs.tcp hc.1 ht _ (by simp)).2 h1
      · exact (hs.tcp hc.1 ht _ (by simp)).2 h1
      · exact (ff ho').1 (c2 rfl)
      · exact (syn o ho' h).1 (c3 h)
      · exact hs.sample
      · exact absurd h (hnf o ho')
      · exact absurd ho' hn
    · intro h
      refine ⟨?_, fun o ho' => ⟨fun hh => absurd (hh.symm.trans hc.1) (by decide), ?_, ?_⟩⟩
      · rcases hc.2.2 with hm | hm
        · exact (hs.tcp hc.1 ht _ (by simp)).1 (h _ hm)
        · exact (hs.tcp hc.1 ht _ (by simp)).1 (h _ hm)
      · rintro rfl
        exact (ff ho').2 (h _ ho')
      · intro hi
        exact (syn o ho' hi).2 (h o ho')
  · rw [if_neg hc] at htr
    rw [htr]
    simp only [List.isEmpty_nil, if_true, List.mem_singleton, exists_eq_left]
    rw [flagCond_plain ho hn hs.all (fun ⟨o, h1, h2⟩ => tcp (hflag ⟨o, h1, .inl h2⟩))]
    have est : ∀ o ∈ opts, o = "established" ∨ o = "tcp-established" →
        ((track = true → e.state ∈ ["ESTABLISHED", "RELATED"]) ↔ p.hasOption o = true) := by
      intro o ho' h
      by_cases ht : track = true
      · rcases h with rfl | rfl
        · rw [hs.est ht]; simp [ht]
        · rw [hs.tcpEst ht (tcp (htcp ho')), hs.est ht]; simp [ht]
      · have ht' : track = false := by simpa using ht
        have hmem : "established" ∈ opts ∨ "tcp-established" ∈ opts := by
          rcases h with rfl | rfl
          · exact .inl ho'
          · exact .inr ho'
        have hnt : protocol ≠ ["tcp"] := fun hh => hc ⟨ht', hh, hmem⟩
        rcases hest ht' hmem with ⟨h1, _⟩ | ⟨h1, h2⟩
        · exact absurd h1 hnt
        · have hu : p.proto = "udp" := by
            rcases hone with h | h
            · exact absurd h h1
            · exact h2 _ h
          rcases h with rfl | rfl
          · simp [ht', hs.udp ht' hu]
          · exact absurd (htcp ho') hnt
    constructor
    · rintro ⟨h1, h2⟩ o ho'
      obtain ⟨c1, c2, c3⟩ := h2 o ho'
      rcases cases14 o (ho o ho') with h | h | rfl | h | rfl | h | rfl
      · exact (est o ho' (.inl h)).1 fun ht => c1 ht (.inl h)
      · exact (est o ho' (.inr h)).1 fun ht => c1 ht (.inr h)
      · exact (ff ho').1 (c2 rfl)
      · exact (syn o ho' h).1 (c3 h)
      · exact hs.sample
      · exact h1 o ho' h
      · exact absurd ho' hn
    · intro h
      refine ⟨fun o ho' _ => h o ho', fun o ho' => ⟨fun ht he => (est o ho' he).2 (h o ho') ht, ?_, ?_⟩⟩
      · rintro rfl
        exact (ff ho').2 (h _ ho')
      · intro hi
        exact (syn o ho' hi).2 (h o ho')

/-! ### all rules of a term -/

/-- The condition of one rule. -/
def comboCond (e : Host) (p : Packet) (tf : List String) (S D : Net → Prop) (P : String → Prop)
    (I : String → Option Nat → Option Nat → Prop) : Combo → Prop
  | (s, d, i, c, q, k) => P q ∧ I q i c ∧ flagCond e p tf k ∧ S s ∧ D d

theorem comboRules_spec {e : Host} {p : Packet} {x : Ctx} {t : Term} {tf : List String} {action : List Arg} {tg : Target}
    {S D : Net → Prop} {P : String → Prop} {I : String → Option Nat → Option Nat → Prop} {O : Prop}
    (ha : Reads action tg) (hl : tg ≠ .log) (hlim : x.log = true → x.logLimit = none)
    (hst : e.state ∈ ["NEW", "ESTABLISHED", "RELATED"]) (cs : List Combo)
    (hS : ∀ c ∈ cs, Says e p (addrArgs x true (some c.1)) (S c.1))
    (hD : ∀ c ∈ cs, Says e p (addrArgs x false (some c.2.1)) (D c.2.1))
    (hI : ∀ c ∈ cs, Says e p (icmpArgs c.2.2.2.2.1 c.2.2.1 c.2.2.2.1) (I c.2.2.2.2.1 c.2.2.1 c.2.2.2.1))
    (hP : ∀ c ∈ cs, ∃ P0, Says e p (protoArgs c.2.2.2.2.1) P0 ∧ (c.2.2.2.2.1 = "all" → P0) ∧
      ((P0 ∧ u32Cond e p c.2.2.2.2.1) ↔ P c.2.2.2.2.1)) :
    ∀ opts : List (List Arg), Says e p opts.flatten O → (opts = [] ∨ ∀ c ∈ cs, ¬ Special c.2.2.2.2.1) →
    Acts e p x.top tg (∃ c ∈ cs, comboCond e p tf S D P I c ∧ O ∧ ifaceCond p x ∧ PortMatch t.sourcePort p.sport ∧
      PortMatch t.destinationPort p.dport) (comboRules x t tf action cs opts).2 := by
  induction cs with
  | nil =>
    intro opts _ _
    exact acts_nil.congr (by simp)
  | cons c cs ih =>
    intro opts ho hsp
    obtain ⟨s, d, i, co, q, k⟩ := c
    rw [comboRules]
    dsimp only
    obtain ⟨P0, hp1, hp2, hp3⟩ := hP _ List.mem_cons_self
    dsimp only at hp1 hp2 hp3
    obtain ⟨r1, r2, r3⟩ := formatPart_spec (saddr := some s) (daddr := some d) (sport := t.sourcePort)
      (dport := t.destinationPort) (options := opts) (tf := tf) (itype := i) (code := co) (track := k) (action := action)
      (t := tg) (x := x)
      ⟨flagArgs_says tf k, hS _ List.mem_cons_self, hD _ List.mem_cons_self, ha, hl, hlim⟩ hp1 hp2
      (hI _ List.mem_cons_self) ho hst
    have ih := ih (fun c hc => hS c (List.mem_cons_of_mem _ hc)) (fun c hc => hD c (List.mem_cons_of_mem _ hc))
      (fun c hc => hI c (List.mem_cons_of_mem _ hc)) (fun c hc => hP c (List.mem_cons_of_mem _ hc))
      (formatPart x q (some s) t.sourcePort (some d) t.destinationPort opts tf i co k action).1
      (by
        rcases hsp with h | h
        · rw [r3 h]; rw [h] at ho; exact ho
        · exact r2 (h _ List.mem_cons_self))
      (by
        rcases hsp with h | h
        · exact .inl (r3 h)
        · exact .inr fun c hc => h c (List.mem_cons_of_mem _ hc))
    refine (acts_append r1 ih).congr ?_
    simp only [List.mem_cons, exists_eq_or_imp]
    refine or_congr ?_ Iff.rfl
    unfold comboCond
    dsimp only
    rw [← hp3]
    constructor
    · rintro ⟨⟨a1, a2, a3, a4⟩, ⟨b1, b2, b3, b4⟩, c1, c2⟩
      exact ⟨⟨⟨a1, a4⟩, a2, b1, b2, b3⟩, a3, b4, c1, c2⟩
    · rintro ⟨⟨⟨a1, a4⟩, a2, b1, b2, b3⟩, a3, b4, c1, c2⟩
      exact ⟨⟨a1, a2, a3, a4⟩, ⟨b1, b2, b3, b4⟩, c1, c2⟩

/-! ### addresses of a term -/

/-- What is known about one side: how its addresses are tested, and that the tests are exact. -/
structure SideOk (e : Host) (p : Packet) (af : Ver) (source : Bool) (s : Side) (set : Option IpSet) (S : Net → Prop)
    (M : Prop) : Prop where
  says : ∀ x : Ctx, x.af = af → (if source then x.srcSet else x.dstSet) = set.map Prod.fst → ∀ n ∈ s.inc,
    Says e p (addrArgs x source (some n)) (S n)
  exc : ∀ n ∈ s.exc, WF n ∧ n.ver = af
  noset : s.exc ≠ [] → set = none
  exact : ((∃ n ∈ s.inc, S n) ∧ ¬ Den s.exc af (if source then p.src else p.dst)) ↔ M

theorem setList_spec {af : Ver} {inc exc : List Net} (h : ∀ n ∈ inc ++ exc, WF n) :
    ∃ l, setList af inc exc = .ok l ∧ (∀ n ∈ l, WF n ∧ n.ver = af) ∧
      ∀ x, x < 2 ^ af.bits → (Den l af x ↔ AddrMatch inc exc af x) := by
  unfold setList
  dsimp only
  have hi : ∀ n ∈ (orAll af inc).filter fun n => n.ver == af, WF n := fun n hn =>
    orAll_wf (fun n hn => h n (List.mem_append_left _ hn)) n (List.mem_filter.1 hn).1
  split
  next hx =>
    rw [List.isEmpty_iff] at hx
    refine ⟨_, rfl, fun n hn => ⟨hi n hn, by simpa using (List.mem_filter.1 hn).2⟩, fun x hxx => ?_⟩
    rw [Cisco.den_filter, den_orAll, hx]
    unfold AddrMatch
    simp [den_nil, hxx]
  next hx =>
    obtain ⟨r, hr, wr, _, dr⟩ := addressListExclude_spec _ (exc.filter fun n => n.ver == af) hi
      fun n hn => h n (List.mem_append_right _ (List.mem_filter.1 hn).1)
    refine ⟨r, hr, fun n hn => ⟨wr n hn, ?_⟩, fun x hxx => ?_⟩
    · have hm : Mem n n.ver n.addr := mem_self
      obtain ⟨⟨m, hm1, hm2⟩, _⟩ := (dr n.ver n.addr).1 ⟨n, hn, hm⟩
      have := (List.mem_filter.1 hm1).2
      rw [← hm2.1]
      simpa using this
    · rw [dr, Cisco.den_filter, Cisco.den_filter, den_orAll]
      unfold AddrMatch
      simp [hxx]

theorem addresses_spec {c : Cls} {af : Ver} {t : Term} {a : (Side × Side) × Option IpSet × Option IpSet} {e : Host}
    {p : Packet} (h : addresses c af t = .ok a) (hs : ∀ n ∈ t.sourceAddress ++ t.sourceAddressExclude, WF n)
    (hd : ∀ n ∈ t.destinationAddress ++ t.destinationAddressExclude, WF n)
    (ns : c.sets = false → SomeLeft af t.sourceAddress t.sourceAddressExclude)
    (nd : c.sets = false → SomeLeft af t.destinationAddress t.destinationAddressExclude) (hv : p.ver = af)
    (hx : p.src < 2 ^ af.bits) (hy : p.dst < 2 ^ af.bits)
    (e1 : ∀ s, a.2.1 = some s → e.sets s.1 = some s.2) (e2 : ∀ s, a.2.2 = some s → e.sets s.1 = some s.2) :
    ∃ S D, SideOk e p af true a.1.1 a.2.1 S (AddrMatch t.sourceAddress t.sourceAddressExclude af p.src) ∧
      SideOk e p af false a.1.2 a.2.2 D (AddrMatch t.destinationAddress t.destinationAddressExclude af p.dst) := by
  unfold addresses at h
  split at h
  next hc =>
    obtain ⟨s, h1, h⟩ := bind_ok h
    obtain ⟨d, h2, h⟩ := bind_ok h
    dsimp only at h
    cases h
    dsimp only at e1 e2 ⊢
    have one : ∀ (source : Bool) (l : List Net) (suffix : Str) (M : Prop), (∀ n ∈ l, WF n ∧ n.ver = af) →
        (∀ s, setOf af t.name suffix l = some s → e.sets s.1 = some s.2) →
        (if source then p.src else p.dst) < 2 ^ af.bits →
        (Den l af (if source then p.src else p.dst) ↔ M) →
        ∃ S, SideOk e p af source ⟨if l.length > 1 then [allIps af] else l, []⟩ (setOf af t.name suffix l) S M := by
      intro source l suffix M hl hset hlt hden
      by_cases hlen : l.length > 1
      · have hso : setOf af t.name suffix l = some (setName af t.name suffix, l) := if_pos hlen
        rw [if_pos hlen, hso]
        refine ⟨fun _ => Den l p.ver (if source then p.src else p.dst), ?_, by simp, by simp, ?_⟩
        · intro x hxa hxs n hn
          rw [List.mem_singleton.1 hn, ← hxa]
          exact addrArgs_set hxs (hset _ hso)
        · rw [← hden, hv]
          simp [den_nil]
      · have hso : setOf af t.name suffix l = none := if_neg hlen
        rw [if_neg hlen, hso]
        refine ⟨fun n => Mem n af (if source then p.src else p.dst), ?_, by simp, by simp, ?_⟩
        · intro x hxa hxs n hn
          subst hxa
          exact addrArgs_says (hl n hn).1 (hl n hn).2 hv hxs hlt
        · rw [← hden]
          unfold Den
          simp
    obtain ⟨l1, k1, w1, d1⟩ := setList_spec (af := af) hs
    obtain ⟨l2, k2, w2, d2⟩ := setList_spec (af := af) hd
    rw [h1] at k1
    rw [h2] at k2
    cases k1
    cases k2
    obtain ⟨S, hS⟩ := one true s "src".toList _ w1 e1 hx (d1 _ hx)
    obtain ⟨D, hD⟩ := one false d "dst".toList _ w2 e2 hy (d2 _ hy)
    exact ⟨S, D, hS, hD⟩
  next hc =>
    have hc' : c.sets = false := by simpa using hc
    obtain ⟨r, h1, h⟩ := bind_ok h
    cases h
    obtain ⟨r', k1, g1, g2, ver, d1, d2⟩ := calculate_spec (af := af) hs hd
      (fun hne => by
        obtain ⟨v, x, h1, h2⟩ := ns hc' hne
        exact ⟨v, x, den_orAll.2 h1, h2⟩)
      (fun hne => by
        obtain ⟨v, x, h1, h2⟩ := nd hc' hne
        exact ⟨v, x, den_orAll.2 h1, h2⟩)
    rw [h1] at k1
    cases k1
    dsimp only
    refine ⟨fun n => Mem n af p.src, fun n => Mem n af p.dst, ⟨?_, ?_, fun _ => rfl, ?_⟩, ⟨?_, ?_, fun _ => rfl, ?_⟩⟩
    · intro x hxa hxs n hn
      subst hxa
      exact addrArgs_says (source := true) (g1 n (List.mem_append_left _ hn)) (ver n (by simp [hn])) hv hxs hx
    · intro n hn
      exact ⟨g1 n (List.mem_append_right _ hn), ver n (by simp [hn])⟩
    · exact d1 _ hx
    · intro x hxa hxs n hn
      subst hxa
      exact addrArgs_says (source := false) (g2 n (List.mem_append_left _ hn)) (ver n (by simp [hn])) hv hxs hy
    · intro n hn
      exact ⟨g2 n (List.mem_append_right _ hn), ver n (by simp [hn])⟩
    · exact d2 _ hy

/-- The rules for excluded addresses. -/
theorem excludeRules_spec {e : Host} {p : Packet} {x : Ctx} {s d : Side} {ss ds : Option IpSet} {S D : Net → Prop}
    {M N : Prop} (h1 : SideOk e p x.af true s ss S M) (h2 : SideOk e p x.af false d ds D N)
    (e1 : x.srcSet = ss.map Prod.fst) (e2 : x.dstSet = ds.map Prod.fst) (hv : p.ver = x.af)
    (hx : p.src < 2 ^ x.af.bits) (hy : p.dst < 2 ^ x.af.bits) (hst : e.state ∈ ["NEW", "ESTABLISHED", "RELATED"]) :
    Acts e p x.top .ret (Den s.exc x.af p.src ∨ Den d.exc x.af p.dst) (excludeRules x s d) := by
  unfold excludeRules
  dsimp only
  refine acts_append ?_ ?_
  · refine acts_flatMap (φ := fun n => Mem n x.af p.src) s.exc fun n hn => ?_
    have hset : x.srcSet = none := by rw [e1, h1.noset (by intro h; rw [h] at hn; cases hn)]; rfl
    have := formatPart_spec (e := e) (p := p) (x := { x with log := false, sint := none, dint := none }) (proto := "")
      (saddr := some n) (daddr := none) (sport := []) (dport := []) (options := []) (tf := []) (itype := none)
      (code := none) (track := ([], [])) (action := [.w "-j", .w "RETURN"]) (t := .ret) (F := True)
      (S := Mem n x.af p.src) (D := True) (P := True) (I := True) (O := True)
      ⟨says_nil, addrArgs_says (source := true) (h1.exc n hn).1 (h1.exc n hn).2 hv hset hx, says_nil, rfl, by decide,
        by simp⟩ says_nil (by simp) says_nil says_nil hst
    exact this.1.congr (by simp [u32Cond, ifaceCond, PortMatch])
  · refine acts_flatMap (φ := fun n => Mem n x.af p.dst) d.exc fun n hn => ?_
    have hset : x.dstSet = none := by rw [e2, h2.noset (by intro h; rw [h] at hn; cases hn)]; rfl
    have := formatPart_spec (e := e) (p := p) (x := { x with log := false, sint := none, dint := none }) (proto := "")
      (saddr := none) (daddr := some n) (sport := []) (dport := []) (options := []) (tf := []) (itype := none)
      (code := none) (track := ([], [])) (action := [.w "-j", .w "RETURN"]) (t := .ret) (F := True)
      (S := True) (D := Mem n x.af p.dst) (P := True) (I := True) (O := True)
      ⟨says_nil, says_nil, addrArgs_says (source := false) (h2.exc n hn).1 (h2.exc n hn).2 hv hset hy, rfl, by decide,
        by simp⟩ says_nil (by simp) says_nil says_nil hst
    exact this.1.congr (by simp [u32Cond, ifaceCond, PortMatch])

end Iptables
end Verif
