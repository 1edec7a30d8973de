import Verif.Spec.Cisco
import Verif.Model.Attrs
import Verif.Lemmas.Summarizer
import Verif.Props.Summarizer
import Verif.Props.Aclgenerator

/-!
Lemmas for the Cisco generator: the device's parser reads back what the generator prints.
-/

namespace Verif
namespace Cisco
open Policy Aclgenerator Nacaddr Summarizer Spec Spec.Ios

/-! ### addresses -/

/-- The addresses an entry of the generator's address list stands for. -/
def Addr.Den (v : Ver) (x : Nat) : Addr → Prop
  | .any => True
  | .net n => Mem n v x
  | .dsm d => v = .v4 ∧ x &&& d.netmask = d.address

/-- Addresses the generator can build. -/
def Addr.Ok : Addr → Prop
  | .any => True
  | .net n => WF n
  | .dsm d => DWF d ∧ d.netmask < 2 ^ 32

theorem mem_iff_div {n : Net} (w : WF n) (v : Ver) (x : Nat) :
    Mem n v x ↔ n.ver = v ∧ x / 2 ^ (v.bits - n.plen) = n.addr / 2 ^ (v.bits - n.plen) := by
  unfold Mem
  constructor
  · rintro ⟨rfl, h1, h2⟩
    refine ⟨rfl, ?_⟩
    obtain ⟨c, hc⟩ := w.aligned
    have hp := Nat.two_pow_pos (n.ver.bits - n.plen)
    rw [hc, Nat.mul_div_cancel_left _ hp]
    rw [hc] at h1 h2
    apply Nat.div_eq_of_lt_le
    · rw [Nat.mul_comm]; exact h1
    · rw [Nat.succ_mul, Nat.mul_comm c]; omega
  · rintro ⟨rfl, h⟩
    refine ⟨rfl, ?_⟩
    obtain ⟨c, hc⟩ := w.aligned
    have hp := Nat.two_pow_pos (n.ver.bits - n.plen)
    rw [hc, Nat.mul_div_cancel_left _ hp] at h
    have h1 := Nat.div_add_mod x (2 ^ (n.ver.bits - n.plen))
    have h2 := Nat.mod_lt x hp
    rw [h] at h1
    rw [hc]
    omega

theorem div_eq_iff_testBit {x a k b : Nat} (hx : x < 2 ^ b) (ha : a < 2 ^ b) :
    x / 2 ^ k = a / 2 ^ k ↔ ∀ i < b, k ≤ i → x.testBit i = a.testBit i := by
  constructor
  · intro h i _ hi
    have := congrArg (fun y => y.testBit (i - k)) h
    simp only [Nat.testBit_div_two_pow] at this
    rwa [Nat.sub_add_cancel hi] at this
  · intro h
    apply Nat.eq_of_testBit_eq
    intro i
    rw [Nat.testBit_div_two_pow, Nat.testBit_div_two_pow]
    rcases Nat.lt_or_ge (i + k) b with hb | hb
    · exact h _ hb (by omega)
    · rw [Nat.testBit_lt_two_pow (Nat.lt_of_lt_of_le hx (Nat.pow_le_pow_right (by omega) hb)),
        Nat.testBit_lt_two_pow (Nat.lt_of_lt_of_le ha (Nat.pow_le_pow_right (by omega) hb))]

theorem wf_addr_lt {n : Net} (w : WF n) : n.addr < 2 ^ n.ver.bits := by
  have := w.range
  have := Nat.two_pow_pos (n.ver.bits - n.plen)
  omega

theorem wild_net {n : Net} (w : WF n) (h4 : n.ver = .v4) (v : Ver) {x : Nat} (hx : x < 2 ^ v.bits) :
    (AddrSpec.wild n.addr n.hostmask).Matches v x ↔ Mem n v x := by
  rw [mem_iff_div w]
  unfold AddrSpec.Matches
  constructor
  · rintro ⟨rfl, h⟩
    refine ⟨h4, ?_⟩
    have ha := wf_addr_lt w
    rw [h4] at ha
    rw [div_eq_iff_testBit hx ha]
    intro i hi hk
    apply h i hi
    rw [testBit_hostmask n i w.plen_le, h4]
    simpa using hk
  · rintro ⟨hv, h⟩
    have hv4 : v = .v4 := by rw [← hv]; exact h4
    subst hv4
    refine ⟨rfl, ?_⟩
    intro i hi hm
    rw [testBit_hostmask n i w.plen_le, h4] at hm
    have ha := wf_addr_lt w
    rw [h4] at ha
    exact (div_eq_iff_testBit hx ha).1 h i hi (by simpa using hm)

theorem num_addresses {n : Net} (w : WF n) : n.broadcast - n.addr + 1 = 2 ^ (n.ver.bits - n.plen) := by
  have := broadcast_succ w
  have := Nat.two_pow_pos (n.ver.bits - n.plen)
  omega

theorem host_net {n : Net} (w : WF n) (h : ¬ n.broadcast - n.addr + 1 > 1) (v : Ver) (x : Nat) :
    (AddrSpec.host n.ver n.addr).Matches v x ↔ Mem n v x := by
  unfold AddrSpec.Matches Mem
  rw [num_addresses w] at h
  have := Nat.two_pow_pos (n.ver.bits - n.plen)
  constructor
  · rintro ⟨h1, h2⟩; exact ⟨h1, by omega, by omega⟩
  · rintro ⟨h1, h2, h3⟩; exact ⟨h1, by omega⟩

theorem quadTok_value {m : MaskText} (h : ∃ a b c d, m = .quad a b c d) :
    quadTok m = .ip .v4 (MaskText.value m) := by
  obtain ⟨a, b, c, d, rfl⟩ := h
  exact congrArg (Tok.ip .v4) (by simp only [MaskText.value]; omega)

theorem dsm_matches {d : DSM} (w : DWF d) (hm : d.netmask < 2 ^ 32) {x : Nat} (hx : x < 2 ^ 32) :
    (∀ i < 32, (2 ^ 32 - 1 - d.netmask).testBit i = false → x.testBit i = d.address.testBit i) ↔
      x &&& d.netmask = d.address := by
  have hb : ∀ i < 32, (2 ^ 32 - 1 - d.netmask).testBit i = !d.netmask.testBit i := by
    intro i hi
    have := Nat.testBit_two_pow_sub_succ hm i
    have e : 2 ^ 32 - (d.netmask + 1) = 2 ^ 32 - 1 - d.netmask := by omega
    rw [e] at this
    simp [this, hi]
  constructor
  · intro h
    apply Nat.eq_of_testBit_eq
    intro i
    rw [Nat.testBit_and]
    rcases Nat.lt_or_ge i 32 with hi | hi
    · cases hmi : d.netmask.testBit i with
      | true =>
        have := h i hi (by rw [hb i hi, hmi]; rfl)
        simp [this]
      | false =>
        have : d.address.testBit i = false := by
          cases ha : d.address.testBit i with
          | false => rfl
          | true => rw [dwf_bit w i ha] at hmi; cases hmi
        simp [this]
    · have hl : d.address < 2 ^ 32 := by
        rw [← w]; exact Nat.lt_of_le_of_lt Nat.and_le_right hm
      rw [Nat.testBit_lt_two_pow (Nat.lt_of_lt_of_le hl (Nat.pow_le_pow_right (by omega) hi)),
        Nat.testBit_lt_two_pow (Nat.lt_of_lt_of_le hx (Nat.pow_le_pow_right (by omega) hi))]
      simp
  · intro h i hi hz
    rw [hb i hi] at hz
    have hz' : d.netmask.testBit i = true := by simpa using hz
    rw [← h, Nat.testBit_and, hz', Bool.and_true]

theorem toDottedQuad_negate {d : DSM} {a m : MaskText} (w : DWF d) (hm : d.netmask < 2 ^ 32)
    (h : toDottedQuad d true false = .ok (a, m)) :
    quadTok a = .ip .v4 d.address ∧ quadTok m = .ip .v4 (2 ^ 32 - 1 - d.netmask) := by
  have hl : d.address < 2 ^ 32 := by
    rw [← w]; exact Nat.lt_of_le_of_lt Nat.and_le_right hm
  have ht : d.netmask ≠ 0 → d.netmask.testBit 31 = true := by
    intro h0
    unfold toDottedQuad at h
    split at h
    · cases h
    · split at h
      · cases h
      next h2 =>
        have h2' : bitLength d.netmask = 0 ∨ bitLength d.netmask = 32 := Classical.not_not.1 h2
        have hlo : ¬ d.netmask < 2 ^ 31 := by
          intro hlt
          have := (bitLength_le_iff d.netmask 31).2 hlt
          have h00 : ¬ bitLength d.netmask ≤ 0 := by
            rw [bitLength_le_iff]; omega
          omega
        have : d.netmask / 2 ^ 31 = 1 := by omega
        rw [Nat.testBit_eq_decide_div_mod_eq, this]
        rfl
  obtain ⟨a', m', e, va, vm⟩ := (toDottedQuad_ok d hl hm ht).2
  rw [e] at h
  cases h
  have hq : ∀ {a m}, toDottedQuad d true false = .ok (a, m) →
      (∃ p q r s, a = .quad p q r s) ∧ ∃ p q r s, m = .quad p q r s := by
    intro a m h
    unfold toDottedQuad at h
    split at h
    · cases h
    · split at h
      · cases h
      · rw [if_neg (by simp)] at h
        cases h
        exact ⟨⟨_, _, _, _, rfl⟩, _, _, _, _, rfl⟩
  obtain ⟨qa, qm⟩ := hq e
  exact ⟨by rw [quadTok_value qa, va], by rw [quadTok_value qm, vm]⟩

/-- The device reads a printed address back, with its meaning; a port condition cannot start there. -/
theorem ipString_spec {c : Cfg} {a : Addr} {toks : List Tok} (ok : a.Ok) (h : ipString c a = .ok toks) :
    ∃ s : AddrSpec, (∀ r, parseAddr (toks ++ r) = some (s, r)) ∧ (∀ r, parsePort (toks ++ r) = (.any, toks ++ r)) ∧
      ∀ v x, x < 2 ^ v.bits → (s.Matches v x ↔ a.Den v x) := by
  cases a with
  | any => cases h; exact ⟨.any, fun r => rfl, fun r => rfl, fun v x _ => Iff.rfl⟩
  | net n =>
    have w : WF n := ok
    unfold ipString at h
    dsimp only at h
    split at h
    next hn =>
      split at h
      next h4 =>
        cases h
        exact ⟨.wild n.addr n.hostmask, fun r => rfl, fun r => rfl, fun v x hx => wild_net w h4.1 v hx⟩
      next =>
        cases h
        refine ⟨.pfx n.ver n.addr n.plen, fun r => rfl, fun r => rfl, fun v x _ => ?_⟩
        exact (mem_iff_div w v x).symm
    next hn =>
      cases h
      exact ⟨.host n.ver n.addr, fun r => rfl, fun r => rfl, fun v x _ => host_net w hn v x⟩
  | dsm d =>
    obtain ⟨w, hm⟩ := ok
    unfold ipString at h
    dsimp only at h
    cases hq : toDottedQuad d true false with
    | error e => rw [hq] at h; cases h
    | ok q =>
      rw [hq] at h
      obtain ⟨a, m⟩ := q
      cases h
      obtain ⟨h1, h2⟩ := toDottedQuad_negate w hm hq
      rw [h1, h2]
      refine ⟨.wild d.address (2 ^ 32 - 1 - d.netmask), fun r => rfl, fun r => rfl, fun v x hx => ?_⟩
      unfold AddrSpec.Matches Addr.Den
      constructor
      · rintro ⟨rfl, h⟩; exact ⟨rfl, (dsm_matches w hm hx).1 h⟩
      · rintro ⟨rfl, h⟩; exact ⟨rfl, (dsm_matches w hm hx).2 h⟩

/-! ### ports -/

theorem mem_of_lookup' [BEq α] [LawfulBEq α] {tbl : List (α × β)} {a : α} {n : β} (h : tbl.lookup a = some n) :
    (a, n) ∈ tbl := by
  induction tbl with
  | nil => cases h
  | cons e tbl ih =>
    obtain ⟨k, v⟩ := e
    rw [List.lookup_cons] at h
    split at h
    next hk => cases h; rw [eq_of_beq hk]; exact List.mem_cons_self
    next => exact List.mem_cons_of_mem _ (ih h)

theorem lookup_inv {t : List (Nat × String)} {u : List (String × Nat)} (h : ∀ e ∈ t, u.lookup e.2 = some e.1)
    {n : Nat} {s : String} (hl : t.lookup n = some s) : u.lookup s = some n :=
  h (n, s) (mem_of_lookup' hl)

theorem protoTok_tcp : protoTok (some (.str "tcp")) = .w "tcp" := by decide
theorem protoTok_udp : protoTok (some (.str "udp")) = .w "udp" := by decide

theorem portName_spec {p : Option Proto} (hp : p ≠ some (.str "icmp")) (n : Nat) :
    portNumber (protoTok p) (portName n p) = some n := by
  unfold portName
  dsimp only
  split
  next s hs =>
    split at hs
    · rw [protoTok_tcp]
      unfold portNumber
      dsimp only
      rw [if_pos rfl]
      exact lookup_inv (by decide) hs
    · rw [protoTok_udp]
      unfold portNumber
      dsimp only
      rw [if_neg (by decide), if_pos rfl]
      exact lookup_inv (by decide) hs
    · exact absurd rfl hp
    · cases hs
  next => rfl

theorem formatPort_spec {c : Cfg} {p : Option Proto} {o : Option PortRange}
    (hp : o ≠ none → c.platform = "arista" → p ≠ some (.str "icmp")) :
    ∃ s : PortSpec, (∀ r, parsePort r = (.any, r) → parsePort (formatPort c p o ++ r) = (s, r)) ∧
      ∀ x, s.Matches (protoTok p) x ↔ ∀ a b, o = some (a, b) → a ≤ x ∧ x ≤ b := by
  cases o with
  | none => exact ⟨.any, fun r h => h, fun x => ⟨fun _ a b h => (by cases h), fun _ => trivial⟩⟩
  | some ab =>
    obtain ⟨a, b⟩ := ab
    have ht : ∀ n : Nat, portNumber (protoTok p)
        (if c.platform = "arista" then portName n p else .num n) = some n := by
      intro n
      split
      next h => exact portName_spec (hp (by simp) h) n
      next => rfl
    unfold formatPort
    dsimp only
    split
    · refine ⟨.range _ _, fun r _ => rfl, fun x => ?_⟩
      unfold PortSpec.Matches
      constructor
      · rintro ⟨i, j, hi, hj, h1, h2⟩ a' b' e
        rw [ht] at hi hj
        cases hi; cases hj; cases e
        exact ⟨h1, h2⟩
      · intro h
        exact ⟨a, b, ht a, ht b, h a b rfl⟩
    next he =>
      have he' : a = b := Classical.not_not.1 he
      subst he'
      refine ⟨.eq _, fun r _ => rfl, fun x => ?_⟩
      unfold PortSpec.Matches
      dsimp only
      rw [ht]
      constructor
      · intro h a' b' e
        cases e; cases h
        exact ⟨Nat.le_refl _, Nat.le_refl _⟩
      · intro h
        have := h a a rfl
        congr 1
        omega

/-- C42 as a lemma: splitting two-port ranges keeps the ports. -/
theorem fixConsecutivePorts_pmem (l : List PortRange) (x : Nat) :
    PMem (fixConsecutivePorts l) x ↔ PMem l x := by
  unfold PMem fixConsecutivePorts
  constructor
  · rintro ⟨r, hr, h1, h2⟩
    obtain ⟨p, hp, hr⟩ := List.mem_flatMap.1 hr
    refine ⟨p, hp, ?_⟩
    split at hr
    · rcases List.mem_cons.1 hr with rfl | hr
      · dsimp only at h1 h2; omega
      · rw [List.mem_singleton.1 hr] at h1 h2; dsimp only at h1 h2; omega
    · rw [List.mem_singleton.1 hr] at h1 h2; exact ⟨h1, h2⟩
  · rintro ⟨p, hp, h1, h2⟩
    by_cases hc : p.1 + 1 = p.2
    · by_cases hx : x = p.1
      · exact ⟨(p.1, p.1), List.mem_flatMap.2 ⟨p, hp, by rw [if_pos hc]; simp⟩, by simp; omega⟩
      · exact ⟨(p.2, p.2), List.mem_flatMap.2 ⟨p, hp, by rw [if_pos hc]; simp⟩, by simp; omega⟩
    · exact ⟨p, List.mem_flatMap.2 ⟨p, hp, by rw [if_neg hc]; simp⟩, h1, h2⟩

theorem ports_spec (l : List PortRange) (x : Nat) :
    (∃ o ∈ ports l, ∀ a b, o = some (a, b) → a ≤ x ∧ x ≤ b) ↔ PortMatch l x := by
  unfold ports PortMatch
  cases l with
  | nil => simp
  | cons p l =>
    rw [if_neg (by simp)]
    constructor
    · rintro ⟨o, ho, h⟩
      obtain ⟨r, hr, rfl⟩ := List.mem_map.1 ho
      exact .inr ((fixConsecutivePorts_pmem _ _).1 ⟨r, hr, h r.1 r.2 rfl⟩)
    · rintro (h | h)
      · cases h
      · obtain ⟨r, hr, h1⟩ := (fixConsecutivePorts_pmem _ _).2 h
        exact ⟨some r, List.mem_map.2 ⟨r, hr, rfl⟩, fun a b e => by cases e; exact h1⟩

/-! ### options and icmp -/

theorem parsePort_opts (opts : List Opt) : parsePort (opts.flatMap Opt.toks) = (.any, opts.flatMap Opt.toks) := by
  cases opts with
  | nil => rfl
  | cons o os => cases o <;> rfl

theorem parseIcmp_opts (opts : List Opt) : parseIcmp (opts.flatMap Opt.toks) = (none, none, opts.flatMap Opt.toks) := by
  cases opts with
  | nil => rfl
  | cons o os => cases o <;> rfl

theorem parseOpts_spec (opts : List Opt) :
    ∃ o, parseOpts (opts.flatMap Opt.toks) = some o ∧ (o.established = true ↔ .established ∈ opts) ∧
      (o.fragments = true ↔ .fragments ∈ opts) ∧ ∀ d, d ∈ o.dscp ↔ .dscp d ∈ opts := by
  induction opts with
  | nil => exact ⟨{}, rfl, by simp, by simp, by simp⟩
  | cons o os ih =>
    obtain ⟨r, h, h1, h2, h3⟩ := ih
    rw [List.flatMap_cons]
    cases o with
    | established =>
      refine ⟨{ r with established := true }, ?_, by simp, by simp [h2], by simp [h3]⟩
      show (parseOpts (os.flatMap Opt.toks)).map _ = _
      rw [h]; rfl
    | fragments =>
      refine ⟨{ r with fragments := true }, ?_, by simp [h1], by simp, by simp [h3]⟩
      show (parseOpts (os.flatMap Opt.toks)).map _ = _
      rw [h]; rfl
    | log => exact ⟨r, h, by simp [h1], by simp [h2], by simp [h3]⟩
    | nexthop n => exact ⟨r, h, by simp [h1], by simp [h2], by simp [h3]⟩
    | dscp d =>
      refine ⟨{ r with dscp := d :: r.dscp }, ?_, by simp [h1], by simp [h2], by simp [h3]⟩
      show (parseOpts (os.flatMap Opt.toks)).map _ = _
      rw [h]; rfl

/-! ### a whole entry -/

theorem icmp_spec (ty co : Option Nat) (hc : co ≠ none → ty ≠ none) (opts : List Opt) :
    parseIcmp ((ty.toList.map fun n : Nat => Tok.num n) ++ ((co.toList.map fun n : Nat => Tok.num n) ++
      opts.flatMap Opt.toks)) =
      (ty.map fun n : Nat => (n : Int), co.map fun n : Nat => (n : Int), opts.flatMap Opt.toks) ∧
    parsePort ((ty.toList.map fun n : Nat => Tok.num n) ++ ((co.toList.map fun n : Nat => Tok.num n) ++
      opts.flatMap Opt.toks)) = (.any, (ty.toList.map fun n : Nat => Tok.num n) ++
        ((co.toList.map fun n : Nat => Tok.num n) ++ opts.flatMap Opt.toks)) := by
  cases ty with
  | none =>
    cases co with
    | none => exact ⟨parseIcmp_opts opts, parsePort_opts opts⟩
    | some c => exact absurd rfl (hc (by simp))
  | some t =>
    cases co with
    | none =>
      refine ⟨?_, rfl⟩
      cases opts with
      | nil => rfl
      | cons o os => cases o <;> rfl
    | some c => exact ⟨rfl, rfl⟩

/-- The device reads a printed entry back, part by part. -/
theorem parse_termlet {c : Cfg} {a b : Addr} {sa da : List Tok} (oka : a.Ok) (okb : b.Ok)
    (ha : ipString c a = .ok sa) (hb : ipString c b = .ok da) {p : Option Proto} {sp dp : Option PortRange}
    (hsp : sp ≠ none → c.platform = "arista" → p ≠ some (.str "icmp"))
    (hdp : dp ≠ none → c.platform = "arista" → p ≠ some (.str "icmp"))
    {ty co : Option Nat} (hc : co ≠ none → ty ≠ none) (opts : List Opt) (permit : Bool) :
    ∃ e : Ace, parseAce (termlet [.w (if permit then "permit" else "deny")] p sa (formatPort c p sp) da
        (formatPort c p dp) ty co opts) = some e ∧ e.permit = permit ∧
      ∀ v (pkt : Packet), pkt.src < 2 ^ v.bits → pkt.dst < 2 ^ v.bits →
        (e.Matches v pkt ↔ pkt.ver = v ∧ ProtoMatches v (protoTok p) pkt ∧ a.Den v pkt.src ∧ b.Den v pkt.dst ∧
          (∀ x y, sp = some (x, y) → x ≤ pkt.sport ∧ pkt.sport ≤ y) ∧
          (∀ x y, dp = some (x, y) → x ≤ pkt.dport ∧ pkt.dport ≤ y) ∧
          (∀ t, ty = some t → (pkt.icmpType, t) ∈ icmpNumbers v) ∧
          (∀ k, co = some k → k = pkt.icmpCode) ∧
          (.established ∈ opts → pkt.hasOption "tcp-established" = true) ∧
          (.fragments ∈ opts → pkt.hasOption "is-fragment" = true) ∧
          (∀ d, .dscp d ∈ opts → pkt.dscp = d)) := by
  obtain ⟨s, s1, _, s3⟩ := ipString_spec oka ha
  obtain ⟨d, d1, d2, d3⟩ := ipString_spec okb hb
  obtain ⟨ps, ps1, ps2⟩ := formatPort_spec hsp
  obtain ⟨pd, pd1, pd2⟩ := formatPort_spec hdp
  obtain ⟨i1, i2⟩ := icmp_spec ty co hc opts
  obtain ⟨o, o1, o2, o3, o4⟩ := parseOpts_spec opts
  have body : ∀ q, parseBody q (protoTok p :: (sa ++ (formatPort c p sp ++ (da ++ (formatPort c p dp ++
      ((ty.toList.map fun n : Nat => Tok.num n) ++ ((co.toList.map fun n : Nat => Tok.num n) ++
        opts.flatMap Opt.toks))))))) =
      some ⟨q, protoTok p, s, ps, d, pd, ty.map fun n : Nat => (n : Int), co.map fun n : Nat => (n : Int), o⟩ := by
    intro q
    unfold parseBody
    dsimp only
    rw [s1]
    simp only [Option.bind_eq_bind, Option.bind_some]
    rw [ps1 _ (d2 _)]
    dsimp only
    rw [d1]
    simp only [Option.bind_some]
    rw [pd1 _ i2]
    dsimp only
    rw [i1]
    dsimp only
    rw [o1]
    rfl
  refine ⟨⟨permit, protoTok p, s, ps, d, pd, ty.map fun n : Nat => (n : Int), co.map fun n : Nat => (n : Int), o⟩,
    ?_, rfl, ?_⟩
  · cases permit
    · exact body false
    · exact body true
  · intro v pkt hs hd
    constructor
    · rintro ⟨m1, m2, m3, m4, m5, m6, m7, m8, m9, m10, m11⟩
      refine ⟨m1, m2, (s3 v _ hs).1 m3, (d3 v _ hd).1 m4, (ps2 _).1 m5, (pd2 _).1 m6, ?_, ?_,
        fun h => m9 (o2.2 h), fun h => m10 (o3.2 h), fun d h => m11 d ((o4 d).2 h)⟩
      · rintro t rfl
        obtain ⟨k, hk, e⟩ := m7 (t : Int) rfl
        have : t = k := by omega
        rw [this]; exact hk
      · rintro k rfl
        have := m8 (k : Int) rfl
        omega
    · rintro ⟨m1, m2, m3, m4, m5, m6, m7, m8, m9, m10, m11⟩
      refine ⟨m1, m2, (s3 v _ hs).2 m3, (d3 v _ hd).2 m4, (ps2 _).2 m5, (pd2 _).2 m6, ?_, ?_,
        fun h => m9 (o2.1 h), fun h => m10 (o3.1 h), fun d h => m11 d ((o4 d).1 h)⟩
      · intro t ht
        cases ty with
        | none => cases ht
        | some k => cases ht; exact ⟨k, m7 k rfl, rfl⟩
      · intro t ht
        cases co with
        | none => cases ht
        | some k => cases ht; rw [m8 k rfl]

/-! ### address lists -/

theorem dsmOk_closed : MergeClosed fun d => DWF d ∧ d.netmask < 2 ^ 32 := by
  rintro c p ⟨c1, c2⟩ ⟨p1, p2⟩ h
  refine ⟨(mergePair_spec c1 p1 h).1, ?_⟩
  obtain ⟨hm, i, hx⟩ := isPair_iff.1 h
  have wc := dwf_bit c1
  have wp := dwf_bit p1
  rw [← hm] at wp
  have hi : c.netmask.testBit i = true := by
    cases hc : c.address.testBit i with
    | true => exact wc i hc
    | false => exact wp i (by rw [xor_bit hx, hc]; simp)
  apply Nat.lt_pow_two_of_testBit
  intro j hj
  have hcj : c.netmask.testBit j = false :=
    Nat.testBit_lt_two_pow (Nat.lt_of_lt_of_le c2 (Nat.pow_le_pow_right (by decide) hj))
  have : i ≠ j := by rintro rfl; rw [hcj] at hi; cases hi
  simp only [mergePair, hx, Nat.testBit_xor, Nat.testBit_two_pow, hcj]
  simp [this]

theorem den_filter (l : List Net) (v : Ver) (x : Nat) : Den (l.filter fun n => n.ver == v) v x ↔ Den l v x := by
  unfold Den
  constructor
  · rintro ⟨n, hn, h⟩; exact ⟨n, (List.mem_filter.1 hn).1, h⟩
  · rintro ⟨n, hn, h⟩; exact ⟨n, List.mem_filter.2 ⟨hn, by simp [h.1]⟩, h⟩

theorem leftover_spec {af : Ver} {inc exc : List Net} (hi : ∀ n ∈ inc, WF n) (he : ∀ n ∈ exc, WF n) (h0 : inc ≠ []) :
    ∃ r, leftover af inc exc = .ok r ∧
      (∀ n ∈ r, WF n) ∧ (∀ n ∈ r, n.ver = af) ∧ ∀ x, Den r af x ↔ AddrMatch inc exc af x := by
  have hif : ∀ n ∈ inc.filter (fun n => n.ver == af), WF n := fun n hn => hi n (List.mem_filter.1 hn).1
  have hef : ∀ n ∈ exc.filter (fun n => n.ver == af), WF n := fun n hn => he n (List.mem_filter.1 hn).1
  unfold leftover
  dsimp only
  split
  next hz =>
    refine ⟨_, rfl, hif, fun n hn => by simpa using (List.mem_filter.1 hn).2, fun x => ?_⟩
    rw [den_filter]
    unfold AddrMatch
    have hz' : ¬ Den exc af x := by
      rw [← den_filter, List.isEmpty_iff.1 hz]
      rintro ⟨n, hn, _⟩; cases hn
    constructor
    · intro h; exact ⟨.inr h, hz'⟩
    · rintro ⟨h | h, _⟩
      · exact absurd h h0
      · exact h
  next hz =>
    obtain ⟨r, h1, hw, h3, h4⟩ := addressListExclude_spec _ _ hif hef
    refine ⟨r, h1, hw, ?_, fun x => ?_⟩
    · intro n hn
      obtain ⟨⟨m, hm, hx⟩, _⟩ := (h4 n.ver n.addr).1 ⟨n, hn, mem_self⟩
      rw [← hx.1]
      simpa using (List.mem_filter.1 hm).2
    · rw [h4, den_filter, den_filter]
      unfold AddrMatch
      constructor
      · rintro ⟨a, b⟩; exact ⟨.inr a, b⟩
      · rintro ⟨a | a, b⟩
        · exact absurd a h0
        · exact ⟨a, b⟩

theorem addrs_spec {af : Ver} {dsmo : Bool} {inc exc : List Net} (hi : ∀ n ∈ inc, WF n) (he : ∀ n ∈ exc, WF n)
    (hd : dsmo = true → af = .v4) (hx : inc = [] → exc = []) :
    ∃ r, addrs af dsmo inc exc = .ok r ∧
      (r = none → inc ≠ [] ∧ ∀ x, ¬ AddrMatch inc exc af x) ∧
      ∀ l, r = some l → (∀ a ∈ l, a.Ok) ∧
        ∀ x, x < 2 ^ af.bits → ((∃ a ∈ l, a.Den af x) ↔ AddrMatch inc exc af x) := by
  unfold addrs
  by_cases h0 : inc = []
  · have e0 := hx h0
    subst h0 e0
    refine ⟨some [.any], rfl, fun h => (by cases h), ?_⟩
    rintro l h
    cases h
    refine ⟨fun a ha => by rw [List.mem_singleton.1 ha]; trivial, fun x _ => ?_⟩
    constructor
    · intro _; exact ⟨.inl rfl, by rintro ⟨n, hn, _⟩; cases hn⟩
    · intro _; exact ⟨.any, List.mem_singleton.2 rfl, trivial⟩
  · rw [if_neg (by simpa using h0)]
    obtain ⟨r, e, hw, hv, hden⟩ := leftover_spec (af := af) hi he h0
    rw [e]
    simp only [bind, Except.bind]
    cases r with
    | nil =>
      refine ⟨none, rfl, fun _ => ⟨h0, fun x hm => ?_⟩, fun l h => by cases h⟩
      obtain ⟨n, hn, _⟩ := (hden x).2 hm
      cases hn
    | cons n r =>
      rw [if_neg (by simp)]
      cases hdd : dsmo with
      | true =>
        rw [if_pos rfl]
        refine ⟨_, rfl, fun h => (by cases h), ?_⟩
        rintro l h
        cases h
        have haf := hd hdd
        have hs := summarize_spec dsmOk_closed (fun _ h => h.1) (n :: r) af hw hv (fun m wm hm => by
          refine ⟨toDSM_dwf wm, ?_⟩
          obtain ⟨k, hk, hmk⟩ := hm m.ver m.addr mem_self
          have h4 : m.ver = .v4 := by rw [← hmk.1, hv k hk, haf]
          have e := netmask_eq wm.plen_le
          rw [h4] at e
          have hb : Ver.v4.bits = 32 := rfl
          rw [hb] at e
          have hp := Nat.two_pow_pos (32 - m.plen)
          rw [toDSM_netmask wm.plen_le]
          omega)
        refine ⟨?_, fun x hx => ?_⟩
        · intro a ha
          obtain ⟨d, hd, rfl⟩ := List.mem_map.1 ha
          exact hs.1 d hd
        · rw [← hden, ← hs.2 x hx]
          constructor
          · rintro ⟨a, ha, hx⟩
            obtain ⟨d, hd, rfl⟩ := List.mem_map.1 ha
            exact ⟨d, hd, hx.2⟩
          · rintro ⟨d, hd, hx⟩
            exact ⟨.dsm d, List.mem_map.2 ⟨d, hd, rfl⟩, haf, hx⟩
      | false =>
        rw [if_neg (by simp)]
        refine ⟨_, rfl, fun h => (by cases h), ?_⟩
        rintro l h
        cases h
        refine ⟨?_, fun x _ => ?_⟩
        · intro a ha
          obtain ⟨d, hd, rfl⟩ := List.mem_map.1 ha
          exact hw d hd
        · rw [← hden]
          constructor
          · rintro ⟨a, ha, hx⟩
            obtain ⟨d, hd, rfl⟩ := List.mem_map.1 ha
            exact ⟨d, hd, hx⟩
          · rintro ⟨d, hd, hx⟩
            exact ⟨.net d, List.mem_map.2 ⟨d, hd, rfl⟩, hx⟩

/-! ### protocols -/

/-- The four generators of the family. -/
def cfgs : List Cfg := [ios, xr, nx, eos, brocade]

/-- What one protocol name turns into. -/
def protoOne (c : Cfg) (s : String) : Option Proto :=
  let p := if c.protoInt then (if allowedProtos.contains (protoNumber (.str s)) then some (protoNumber (.str s))
    else protoGet (protoNumber (.str s))) else some (protoNumber (.str s))
  if c.platform = "arista" then
    (if p = some (.str "esp") then some (.str "50") else if p = some (.str "ah") then some (.str "51") else p)
  else p

theorem protocols_map {c : Cfg} {af : Ver} {l : List String} (h0 : l ≠ []) (h1 : l ≠ ["hopopt"]) :
    protocols c af ((l.map .str).map protoNumber) = l.map (protoOne c) := by
  have e0 : ((l.map Proto.str).map protoNumber).isEmpty = false := by
    cases l with
    | nil => exact absurd rfl h0
    | cons => rfl
  have e1 : (l.map Proto.str).map protoNumber ≠ [.str "hopopt"] := by
    intro h
    apply h1
    have hl : l.length = 1 := by simpa using congrArg List.length h
    obtain ⟨s, rfl⟩ := List.length_eq_one_iff.1 hl
    simp only [List.map_cons, List.map_nil, List.cons.injEq, and_true, protoNumber] at h
    split at h
    · cases h
    · simp only [Proto.str.injEq] at h; rw [h]
  unfold protocols
  rw [e0]
  simp only [Bool.false_eq_true, if_false, if_neg e1]
  have e : (if c.protoInt then protoInts ((l.map Proto.str).map protoNumber) else
      ((l.map Proto.str).map protoNumber).map some) = l.map fun s =>
        if c.protoInt then (if allowedProtos.contains (protoNumber (.str s)) then some (protoNumber (.str s))
          else protoGet (protoNumber (.str s))) else some (protoNumber (.str s)) := by
    split <;> simp [protoInts, List.map_map, Function.comp_def]
  rw [e]
  split
  next h => simp [protoOne, h, List.map_map, Function.comp_def]
  next h => simp [protoOne, h]

set_option synthInstance.maxSize 2000 in
set_option synthInstance.maxHeartbeats 200000 in
theorem proto_tokens : ∀ c ∈ cfgs, ∀ v ∈ [Ver.v4, Ver.v6], ∀ e ∈ iana,
    (c.protoInt = false → v = .v6 → e.1 ≠ "ipv6") → ¬ (v = .v6 ∧ e.1 = "icmp") →
    protoTok (printedProto c v (protoOne c e.1)) = .num e.2 ∨
    (protoTok (printedProto c v (protoOne c e.1)) = .w e.1 ∧ (v = .v6 → e.1 ≠ "ipv6")) ∨
    (protoTok (printedProto c v (protoOne c e.1)) = .w "icmp" ∧ v = .v6 ∧ e.1 = "icmpv6") := by
  decide

theorem iana_inj : ∀ a ∈ iana, ∀ b ∈ iana, a.2 = b.2 → a.1 = b.1 := by decide

theorem iana_words : ∀ a ∈ iana, a.1 ≠ "ip" ∧ a.1 ≠ "ipv4" ∧ a.1 ≠ "hbh" := by decide

theorem iana_num {s : String} {k : Nat} (h : (s, k) ∈ iana) (p : Packet) {v : Ver} :
    ProtoMatches v (.num k) p ↔ p.proto = s := by
  unfold ProtoMatches
  dsimp only
  constructor
  · rintro ⟨j, hj, e⟩
    exact iana_inj _ hj _ h (by simp only; omega)
  · rintro rfl; exact ⟨k, h, rfl⟩

theorem proto_match {c : Cfg} (hc : c ∈ cfgs) {v : Ver} {s : String} (hs : s ∈ iana.map Prod.fst)
    (h6 : c.protoInt = false → v = .v6 → s ≠ "ipv6") (hi : ¬ (v = .v6 ∧ s = "icmp")) {p : Packet} (hp : Coherent p)
    (hv : p.ver = v) : ProtoMatches v (protoTok (printedProto c v (protoOne c s))) p ↔ p.proto = s := by
  obtain ⟨e, he, rfl⟩ := List.mem_map.1 hs
  have hw := iana_words e he
  rcases proto_tokens c hc v (by cases v <;> simp) e he h6 hi with h | ⟨h, h6'⟩ | ⟨h, h1, h2⟩
  · rw [h]; exact iana_num he p
  · rw [h]
    unfold ProtoMatches
    dsimp only
    constructor
    · rintro (⟨h | h, _⟩ | ⟨h, hv⟩ | ⟨h, _⟩ | ⟨h, hv, _⟩ | h)
      · exact absurd h hw.1
      · exact absurd h hw.2.1
      · exact absurd h (h6' hv)
      · exact absurd h hw.2.2
      · exact absurd ⟨hv, h⟩ hi
      · exact h
    · intro h; exact .inr (.inr (.inr (.inr h)))
  · rw [h, h2]
    unfold ProtoMatches
    dsimp only
    constructor
    · rintro (⟨h | h, _⟩ | ⟨h, hv⟩ | ⟨h, _⟩ | ⟨h, _, h'⟩ | h)
      · exact absurd h (by decide)
      · exact absurd h (by decide)
      · exact absurd h (by decide)
      · exact absurd h (by decide)
      · exact h'
      · exact absurd h (hp.icmp6 (by rw [hv, h1]))
    · intro h; exact .inr (.inr (.inr (.inl ⟨rfl, h1, h⟩)))

/-- An entry for UDP never carries `established`, all others carry the options of the term. -/
theorem mem_fixOptions {q : Option Proto} {opts : List Opt} (o : Opt) (ho : o ≠ .established) :
    o ∈ fixOptions q opts ↔ o ∈ opts := by
  unfold fixOptions
  split
  · exact List.mem_erase_of_ne ho
  · exact Iff.rfl

theorem est_fixOptions {q : Option Proto} {opts : List Opt} (h : ¬ (q = some (.num 17) ∨ q = some (.str "udp"))) :
    .established ∈ fixOptions q opts ↔ .established ∈ opts := by
  unfold fixOptions
  rw [if_neg h]

theorem udp_cases : ∀ c ∈ cfgs, ∀ e ∈ iana,
    (protoOne c e.1 = some (.num 17) ∨ protoOne c e.1 = some (.str "udp")) → e.1 = "udp" := by decide

theorem tcp_cases : ∀ c ∈ cfgs, ∀ e ∈ iana,
    (protoOne c e.1 = some (.num 6) ∨ protoOne c e.1 = some (.str "tcp")) ↔ e.1 = "tcp" := by decide

theorem ip_cases : ∀ c ∈ cfgs, ∀ e ∈ iana, protoOne c e.1 ≠ some (.str "ip") := by decide

theorem icmp_cases : ∀ c ∈ cfgs, ∀ v ∈ [Ver.v4, Ver.v6], ∀ e ∈ iana,
    printedProto c v (protoOne c e.1) = some (.str "icmp") → e.1 = "icmp" ∨ e.1 = "icmpv6" := by decide

/-! ### icmp types -/

theorem icmp_nodup : (icmpV4.map Prod.fst).Nodup ∧ (icmpV6.map Prod.fst).Nodup ∧ (icmpV4.map Prod.snd).Nodup ∧
    (icmpV6.map Prod.snd).Nodup := by decide

theorem lookup_of_mem {tbl : List (String × Nat)} (hn : (tbl.map Prod.fst).Nodup) {a : String} {n : Nat}
    (h : (a, n) ∈ tbl) : tbl.lookup a = some n := by
  induction tbl with
  | nil => cases h
  | cons e tbl ih =>
    obtain ⟨k, v⟩ := e
    rw [List.map_cons, List.nodup_cons] at hn
    rw [List.lookup_cons]
    rcases List.mem_cons.1 h with h1 | h1
    · simp only [Prod.mk.injEq] at h1
      rw [h1.1, h1.2]; simp
    · have : a ≠ k := by
        rintro rfl
        exact hn.1 (List.mem_map.2 ⟨(a, n), h1, rfl⟩)
      rw [show (a == k) = false by simpa using this]
      exact ih hn.2 h1

theorem icmpTypes_spec {t : Term} {af : Ver} {types : List (Option Nat)} (h : icmpTypesOf t af = .ok types)
    (p : Packet) :
    ((∃ ty ∈ types, ∀ k, ty = some k → (p.icmpType, k) ∈ icmpNumbers af) ↔ OneOf t.icmpType p.icmpType) ∧
    (t.icmpType ≠ [] → none ∉ types) ∧ (t.icmpType = [] → types = [none]) := by
  unfold icmpTypesOf at h
  split at h
  next h0 =>
    cases h
    have h0' := List.isEmpty_iff.1 h0
    exact ⟨⟨fun _ => .inl h0', fun _ => ⟨none, List.mem_singleton.2 rfl, fun k e => by cases e⟩⟩,
      fun h => absurd h0' h, fun _ => rfl⟩
  next h0 =>
    have h0' : t.icmpType ≠ [] := by simpa using h0
    obtain ⟨tbl, hc, hk, nums, rfl, _, hp⟩ := (Props.C34_types h0' types).1 h
    have ht : tbl = icmpNumbers af := by
      cases af with
      | v4 =>
        rcases hc with ⟨_, _, rfl⟩ | ⟨e, _, _⟩
        · rfl
        · exact absurd e (by decide)
      | v6 =>
        rcases hc with ⟨e, _, _⟩ | ⟨_, _, rfl⟩
        · exact absurd e (by decide)
        · rfl
    have hn1 : (tbl.map Prod.fst).Nodup := by
      rw [ht]; cases af
      · exact icmp_nodup.1
      · exact icmp_nodup.2.1
    have hn2 : ∀ a b n, tbl.lookup a = some n → tbl.lookup b = some n → a = b := by
      rw [ht]; cases af
      · exact Props.C34_injective.1
      · exact Props.C34_injective.2
    refine ⟨?_, fun _ => by simp, fun h => absurd h h0'⟩
    constructor
    · rintro ⟨ty, hty, hm⟩
      obtain ⟨k, hk', rfl⟩ := List.mem_map.1 hty
      obtain ⟨x, hx, hl⟩ := List.mem_filterMap.1 (hp.mem_iff.1 hk')
      have := hm k rfl
      rw [← ht] at this
      rw [hn2 _ _ _ (lookup_of_mem hn1 this) hl]
      exact .inr hx
    · rintro (h | h)
      · exact absurd h h0'
      · obtain ⟨n, hn⟩ := hk _ h
        refine ⟨some n, List.mem_map.2 ⟨n, hp.mem_iff.2 (List.mem_filterMap.2 ⟨_, h, hn⟩), rfl⟩, ?_⟩
        rintro k e
        cases e
        rw [← ht]
        exact mem_of_lookup' hn

/-! ### all lines of a term -/

theorem mem_expand {c : Cfg} {af : Ver} {act : List Tok} {protos : List (Option Proto)} {sas das : List (List Tok)}
    {sps dps : List (Option PortRange)} {types codes : List (Option Nat)} {opts : List Opt} {l : List Tok} :
    l ∈ expand c af act protos sas das sps dps types codes opts ↔
      ∃ sa ∈ sas, ∃ da ∈ das, ∃ sp ∈ sps, ∃ dp ∈ dps, ∃ q ∈ protos, ∃ ty ∈ types, ∃ co ∈ codes,
        l = termlet act (printedProto c af q) sa (formatPort c (printedProto c af q) sp) da
          (formatPort c (printedProto c af q) dp) ty co (fixOptions q opts) := by
  unfold expand
  simp only [List.mem_flatMap, List.mem_map]
  constructor
  · rintro ⟨sa, h1, da, h2, sp, h3, dp, h4, q, h5, ty, h6, co, h7, rfl⟩
    exact ⟨sa, h1, da, h2, sp, h3, dp, h4, q, h5, ty, h6, co, h7, rfl⟩
  · rintro ⟨sa, h1, da, h2, sp, h3, dp, h4, q, h5, ty, h6, co, h7, rfl⟩
    exact ⟨sa, h1, da, h2, sp, h3, dp, h4, q, h5, ty, h6, co, h7, rfl⟩

/-- The token of the action. -/
def actTok (permit : Bool) : List Tok := [.w (if permit then "permit" else "deny")]

theorem ports_ne {l : List PortRange} {o : Option PortRange} (h : o ∈ ports l) : o ≠ none → l ≠ [] := by
  rintro h1 rfl
  simp only [ports, List.isEmpty_nil, if_true, List.mem_singleton] at h
  exact h1 h

theorem listM_each {α β : Type} {f : α → Except Err β} : ∀ {l : List α} {r : List β}, listM f l = .ok r →
    ∀ a ∈ l, ∃ x, f a = .ok x
  | [], _, _, a, ha => by cases ha
  | b :: bs, r, h, a, ha => by
    rw [listM] at h
    obtain ⟨x, h1, h2⟩ := bind_ok h
    obtain ⟨y, h3, _⟩ := bind_ok h2
    rcases List.mem_cons.1 ha with rfl | ha
    · exact ⟨x, h1⟩
    · exact listM_each h3 a ha

/-- What the lines of a term match, one dimension at a time. -/
theorem body_match {c : Cfg} {af : Ver} {permit : Bool} {protos : List (Option Proto)} {src dst : List Addr}
    {sas das : List (List Tok)} {sps dps : List PortRange} {types : List (Option Nat)} {codes : List Nat}
    {opts : List Opt} (hs : listM (ipString c) src = .ok sas) (hd : listM (ipString c) dst = .ok das)
    (oks : ∀ a ∈ src, a.Ok) (okd : ∀ a ∈ dst, a.Ok) (hco : codes ≠ [] → none ∉ types)
    (hicmp : c.platform = "arista" → sps ≠ [] ∨ dps ≠ [] → ∀ q ∈ protos, printedProto c af q ≠ some (.str "icmp"))
    {p : Packet} (hps : p.src < 2 ^ af.bits) (hpd : p.dst < 2 ^ af.bits) (hv : p.ver = af)
    (hudp : ∀ q ∈ protos, (q = some (.num 17) ∨ q = some (.str "udp")) →
      ProtoMatches af (protoTok (printedProto c af q)) p → p.hasOption "tcp-established" = true) (b : Bool) :
    (∃ l ∈ (expand c af (actTok permit) protos sas das (ports sps) (ports dps) types
        (if codes.isEmpty then [none] else codes.map some) opts).map Line.ace, LineMatches af l b p) ↔
      b = permit ∧ (∃ q ∈ protos, ProtoMatches af (protoTok (printedProto c af q)) p) ∧
      (∃ a ∈ src, a.Den af p.src) ∧ (∃ a ∈ dst, a.Den af p.dst) ∧ PortMatch sps p.sport ∧ PortMatch dps p.dport ∧
      (∃ ty ∈ types, ∀ k, ty = some k → (p.icmpType, k) ∈ Spec.icmpNumbers af) ∧ OneOf codes p.icmpCode ∧
      (.established ∈ opts → p.hasOption "tcp-established" = true) ∧
      (.fragments ∈ opts → p.hasOption "is-fragment" = true) ∧ ∀ d, .dscp d ∈ opts → p.dscp = d := by
  have hcodes : (∃ co ∈ (if codes.isEmpty then [none] else codes.map some), ∀ k, co = some k → k = p.icmpCode) ↔
      OneOf codes p.icmpCode := by
    unfold OneOf
    cases codes with
    | nil => simp
    | cons x xs =>
      rw [if_neg (by simp)]
      constructor
      · rintro ⟨co, hco, h⟩
        obtain ⟨k, hk, rfl⟩ := List.mem_map.1 hco
        rw [← h k rfl]; exact .inr hk
      · rintro (h | h)
        · cases h
        · exact ⟨some p.icmpCode, List.mem_map.2 ⟨_, h, rfl⟩, fun k e => by cases e; rfl⟩
  have hco' : ∀ {ty co}, ty ∈ types → co ∈ (if codes.isEmpty then [none] else codes.map some) → co ≠ none → ty ≠ none := by
    rintro ty co ht hc hn rfl
    cases codes with
    | nil => simp at hc; exact hn hc
    | cons x xs => exact hco (by simp) ht
  -- one line
  have line : ∀ {a b' : Addr} {sa da : List Tok} {sp dp q ty co}, a ∈ src → b' ∈ dst → ipString c a = .ok sa →
      ipString c b' = .ok da → sp ∈ ports sps → dp ∈ ports dps → q ∈ protos → ty ∈ types →
      co ∈ (if codes.isEmpty then [none] else codes.map some) →
      (LineMatches af (.ace (termlet (actTok permit) (printedProto c af q) sa (formatPort c (printedProto c af q) sp) da
        (formatPort c (printedProto c af q) dp) ty co (fixOptions q opts))) b p ↔
        b = permit ∧ ProtoMatches af (protoTok (printedProto c af q)) p ∧ a.Den af p.src ∧ b'.Den af p.dst ∧
          (∀ x y, sp = some (x, y) → x ≤ p.sport ∧ p.sport ≤ y) ∧
          (∀ x y, dp = some (x, y) → x ≤ p.dport ∧ p.dport ≤ y) ∧
          (∀ t, ty = some t → (p.icmpType, t) ∈ Spec.icmpNumbers af) ∧ (∀ k, co = some k → k = p.icmpCode) ∧
          (.established ∈ opts → p.hasOption "tcp-established" = true) ∧
          (.fragments ∈ opts → p.hasOption "is-fragment" = true) ∧ (∀ d, .dscp d ∈ opts → p.dscp = d)) := by
    intro a b' sa da sp dp q ty co ha hb' hsa hda hsp hdp hq hty hco
    obtain ⟨e, e1, e2, e3⟩ := parse_termlet (oks a ha) (okd b' hb') hsa hda (p := printedProto c af q)
      (sp := sp) (dp := dp) (fun h hp => hicmp hp (.inl (ports_ne hsp h)) q hq)
      (fun h hp => hicmp hp (.inr (ports_ne hdp h)) q hq) (hco' hty hco) (fixOptions q opts) permit
    have hest : ProtoMatches af (protoTok (printedProto c af q)) p →
        ((.established ∈ fixOptions q opts → p.hasOption "tcp-established" = true) ↔
          (.established ∈ opts → p.hasOption "tcp-established" = true)) := by
      intro hm
      by_cases hu : q = some (.num 17) ∨ q = some (.str "udp")
      · have := hudp q hq hu hm
        exact ⟨fun _ _ => this, fun _ _ => this⟩
      · rw [est_fixOptions hu]
    constructor
    · rintro ⟨toks, f, h1, h2, h3, h4⟩
      cases h1
      have hef : e = f := by
        have := e1.symm.trans h2
        simpa using this
      subst hef
      obtain ⟨-, m2, m3, m4, m5, m6, m7, m8, m9, m10, m11⟩ := (e3 af p hps hpd).1 h4
      exact ⟨by rw [← h3, e2], m2, m3, m4, m5, m6, m7, m8, (hest m2).1 m9,
        fun h => m10 ((mem_fixOptions _ (by simp)).2 h), fun d h => m11 d ((mem_fixOptions _ (by simp)).2 h)⟩
    · rintro ⟨rfl, m2, m3, m4, m5, m6, m7, m8, m9, m10, m11⟩
      exact ⟨_, e, rfl, e1, e2, (e3 af p hps hpd).2 ⟨hv, m2, m3, m4, m5, m6, m7, m8, (hest m2).2 m9,
        fun h => m10 ((mem_fixOptions _ (by simp)).1 h), fun d h => m11 d ((mem_fixOptions _ (by simp)).1 h)⟩⟩
  constructor
  · rintro ⟨l, hl, hm⟩
    obtain ⟨toks, ht, rfl⟩ := List.mem_map.1 hl
    obtain ⟨sa, h1, da, h2, sp, h3, dp, h4, q, h5, ty, h6, co, h7, rfl⟩ := mem_expand.1 ht
    obtain ⟨a, ha, hsa⟩ := (listM_mem hs sa).1 h1
    obtain ⟨b', hb', hda⟩ := (listM_mem hd da).1 h2
    obtain ⟨m1, m2, m3, m4, m5, m6, m7, m8, m9⟩ := (line ha hb' hsa hda h3 h4 h5 h6 h7).1 hm
    exact ⟨m1, ⟨q, h5, m2⟩, ⟨a, ha, m3⟩, ⟨b', hb', m4⟩, (ports_spec _ _).1 ⟨sp, h3, m5⟩, (ports_spec _ _).1 ⟨dp, h4, m6⟩,
      ⟨ty, h6, m7⟩, hcodes.1 ⟨co, h7, m8⟩, m9⟩
  · rintro ⟨m1, ⟨q, h5, m2⟩, ⟨a, ha, m3⟩, ⟨b', hb', m4⟩, m5, m6, ⟨ty, h6, m7⟩, m8, m9⟩
    obtain ⟨sp, h3, m5⟩ := (ports_spec _ _).2 m5
    obtain ⟨dp, h4, m6⟩ := (ports_spec _ _).2 m6
    obtain ⟨co, h7, m8⟩ := hcodes.2 m8
    obtain ⟨sa, hsa⟩ := listM_each hs a ha
    obtain ⟨da, hda⟩ := listM_each hd b' hb'
    exact ⟨_, List.mem_map.2 ⟨_, mem_expand.2 ⟨sa, (listM_mem hs sa).2 ⟨a, ha, hsa⟩, da, (listM_mem hd da).2 ⟨b', hb', hda⟩,
      sp, h3, dp, h4, q, h5, ty, h6, co, h7, rfl⟩, rfl⟩, (line ha hb' hsa hda h3 h4 h5 h6 h7).2
        ⟨m1, m2, m3, m4, m5, m6, m7, m8, m9⟩⟩

/-! ### the keyword check -/

theorem subTokens_ok : ∀ c ∈ cfgs, ∀ e ∈ (tables c).subTokens, e.1 ∈ (tables c).tokens := by decide

theorem attr_refused {c : Cfg} {t : Term} (hc : c ∈ cfgs) (ha : Spec.Active c.platform (kterm t))
    (h : initCheck (tables c) [([c.platform], [kterm t])] = .ok ()) {a : String × Val} (hm : a ∈ attrsOf t)
    (ht : a.1 ∉ (tables c).tokens) (hw : a.1 ∉ warnIfUnsupported) (hf : startsWith "flatten" a.1 = false) :
    a.2.truthy = false := by
  cases hv : a.2.truthy with
  | false => rfl
  | true =>
    have hg : ∀ e ∈ (tables c).subTokens, e.1 ∈ (tables c).tokens := subTokens_ok c hc
    have := (Props.C35_refused_partial hg [([c.platform], [kterm t])]).2
      ⟨_, List.mem_singleton.2 rfl, List.mem_singleton.2 rfl, _, List.mem_singleton.2 rfl, ha, a, hm,
        .inl ⟨hv, ht, by
          rw [← Props.startsWith_iff, hf]; simp⟩, fun h => absurd h hw⟩
    rw [h] at this
    cases this

theorem listVal_falsy {l : List α} (h : (listVal l).truthy = false) : l = [] := by
  unfold listVal at h
  split at h
  next h' => exact List.isEmpty_iff.1 h'
  next => cases h

theorem wordsVal_falsy {l : List String} (h : (wordsVal l).truthy = false) : l = [] := by
  unfold wordsVal at h
  split at h
  next h' => exact List.isEmpty_iff.1 h'
  next h' => simp [Val.truthy] at h; exact absurd h (by simpa using h')

theorem flagVal_falsy {b : Bool} (h : (flagVal b).truthy = false) : b = false := by
  cases b
  · rfl
  · cases h

theorem numVal_falsy {n : Option Nat} (h : (numVal n).truthy = false) : n = none ∨ n = some 0 := by
  unfold numVal at h
  split at h
  next h' =>
    cases n with
    | none => exact .inl rfl
    | some k => exact .inr (by simpa using h')
  next => cases h

/-- The conditions that the generators do not support are absent from an accepted term. -/
structure Unsupported (t : Term) : Prop where
  addressExclude : t.addressExclude = []
  destinationPrefix : t.destinationPrefix = []
  forwardingClass : t.forwardingClass = []
  forwardingClassExcept : t.forwardingClassExcept = []
  port : t.port = []
  precedence : t.precedence = []
  protocolExcept : t.protocolExcept = []
  sourcePrefix : t.sourcePrefix = []
  packetLength : t.packetLength = []
  fragmentOffset : t.fragmentOffset = []
  hopLimit : t.hopLimit = []
  etherType : t.etherType = []
  trafficType : t.trafficType = []
  dscpExcept : t.dscpExcept = []
  flexible : t.flexibleMatchRange = []
  sourcePrefixExcept : t.sourcePrefixExcept = []
  destinationPrefixExcept : t.destinationPrefixExcept = []
  destinationZone : t.destinationZone = []
  sourceZone : t.sourceZone = []
  sourceInterface : t.sourceInterface = none
  destinationInterface : t.destinationInterface = none
  ttl : t.ttl = none ∨ t.ttl = some 0
  trafficClass : t.trafficClass = none ∨ t.trafficClass = some 0

theorem unsupported_tokens : ∀ c ∈ cfgs, ∀ s ∈ ["address_exclude", "destination_prefix", "forwarding_class",
    "forwarding_class_except", "port", "precedence", "protocol_except", "source_prefix", "packet_length",
    "fragment_offset", "hop_limit", "ether_type", "traffic_type", "dscp_except", "flexible_match_range",
    "source_prefix_except", "destination_prefix_except", "destination_zone", "source_zone", "source_interface",
    "destination_interface", "ttl", "traffic_class"],
    s ∉ (tables c).tokens ∧ s ∉ warnIfUnsupported ∧ startsWith "flatten" s = false := by
  decide

theorem unsupported {c : Cfg} {t : Term} (hc : c ∈ cfgs) (ha : Spec.Active c.platform (kterm t))
    (h : initCheck (tables c) [([c.platform], [kterm t])] = .ok ()) : Unsupported t := by
  have key : ∀ a : String × Val, a ∈ attrsOf t → a.1 ∈ ["address_exclude", "destination_prefix", "forwarding_class",
    "forwarding_class_except", "port", "precedence", "protocol_except", "source_prefix", "packet_length",
    "fragment_offset", "hop_limit", "ether_type", "traffic_type", "dscp_except", "flexible_match_range",
    "source_prefix_except", "destination_prefix_except", "destination_zone", "source_zone", "source_interface",
    "destination_interface", "ttl", "traffic_class"] → a.2.truthy = false := by
    intro a hm hs
    obtain ⟨h1, h2, h3⟩ := unsupported_tokens c hc a.1 hs
    exact attr_refused hc ha h hm h1 h2 h3
  refine ⟨?_, ?_, ?_, ?_, ?_, ?_, ?_, ?_, ?_, ?_, ?_, ?_, ?_, ?_, ?_, ?_, ?_, ?_, ?_, ?_, ?_, ?_, ?_⟩
  · exact listVal_falsy (key ("address_exclude", listVal t.addressExclude) (by simp [attrsOf]) (by simp))
  · exact wordsVal_falsy (key ("destination_prefix", wordsVal t.destinationPrefix) (by simp [attrsOf]) (by simp))
  · exact wordsVal_falsy (key ("forwarding_class", wordsVal t.forwardingClass) (by simp [attrsOf]) (by simp))
  · exact wordsVal_falsy (key ("forwarding_class_except", wordsVal t.forwardingClassExcept) (by simp [attrsOf]) (by simp))
  · exact listVal_falsy (key ("port", listVal t.port) (by simp [attrsOf]) (by simp))
  · exact wordsVal_falsy (key ("precedence", wordsVal t.precedence) (by simp [attrsOf]) (by simp))
  · exact wordsVal_falsy (key ("protocol_except", wordsVal t.protocolExcept) (by simp [attrsOf]) (by simp))
  · exact wordsVal_falsy (key ("source_prefix", wordsVal t.sourcePrefix) (by simp [attrsOf]) (by simp))
  · exact listVal_falsy (key ("packet_length", listVal t.packetLength) (by simp [attrsOf]) (by simp))
  · exact listVal_falsy (key ("fragment_offset", listVal t.fragmentOffset) (by simp [attrsOf]) (by simp))
  · exact listVal_falsy (key ("hop_limit", listVal t.hopLimit) (by simp [attrsOf]) (by simp))
  · exact wordsVal_falsy (key ("ether_type", wordsVal t.etherType) (by simp [attrsOf]) (by simp))
  · exact wordsVal_falsy (key ("traffic_type", wordsVal t.trafficType) (by simp [attrsOf]) (by simp))
  · exact wordsVal_falsy (key ("dscp_except", wordsVal t.dscpExcept) (by simp [attrsOf]) (by simp))
  · exact wordsVal_falsy (key ("flexible_match_range", wordsVal t.flexibleMatchRange) (by simp [attrsOf]) (by simp))
  · exact wordsVal_falsy (key ("source_prefix_except", wordsVal t.sourcePrefixExcept) (by simp [attrsOf]) (by simp))
  · exact wordsVal_falsy (key ("destination_prefix_except", wordsVal t.destinationPrefixExcept) (by simp [attrsOf]) (by simp))
  · exact wordsVal_falsy (key ("destination_zone", wordsVal t.destinationZone) (by simp [attrsOf]) (by simp))
  · exact wordsVal_falsy (key ("source_zone", wordsVal t.sourceZone) (by simp [attrsOf]) (by simp))
  · have := flagVal_falsy (key ("source_interface", flagVal t.sourceInterface.isSome) (by simp [attrsOf]) (by simp))
    simpa using this
  · have := flagVal_falsy (key ("destination_interface", flagVal t.destinationInterface.isSome) (by simp [attrsOf]) (by simp))
    simpa using this
  · exact numVal_falsy (key ("ttl", numVal t.ttl) (by simp [attrsOf]) (by simp))
  · exact numVal_falsy (key ("traffic_class", numVal t.trafficClass) (by simp [attrsOf]) (by simp))

theorem mem_wordsVal {l : List String} {w : String} (h : w ∈ l) : wordsVal l = .words l := by
  unfold wordsVal
  rw [if_neg]
  intro h'
  rw [List.isEmpty_iff.1 h'] at h
  cases h

theorem options_known {c : Cfg} {t : Term} (hc : c ∈ cfgs) (ha : Spec.Active c.platform (kterm t))
    (h : initCheck (tables c) [([c.platform], [kterm t])] = .ok ()) {o : String} (ho : o ∈ t.option) :
    o ∈ ["established", "tcp-established", "is-fragment", "fragments"] := by
  refine Classical.byContradiction fun hn => ?_
  have hg : ∀ e ∈ (tables c).subTokens, e.1 ∈ (tables c).tokens := subTokens_ok c hc
  have hr : ∃ l ok, wordsVal t.option = .words l ∧ (tables c).subTokens.lookup "option" = some ok ∧ ".*" ∉ ok ∧
      ∃ w ∈ l, w ∉ ok := by
    refine ⟨t.option, ["established", "tcp-established", "is-fragment", "fragments"], mem_wordsVal ho, rfl,
      by decide, o, ho, hn⟩
  have := (Props.C35_refused_partial hg [([c.platform], [kterm t])]).2
    ⟨_, List.mem_singleton.2 rfl, List.mem_singleton.2 rfl, _, List.mem_singleton.2 rfl, ha,
      ("option", wordsVal t.option), by simp [kterm, attrsOf], .inr hr, fun _ => .inr hr⟩
  rw [h] at this
  cases this

theorem action_known {c : Cfg} {t : Term} (hc : c ∈ cfgs) (ha : Spec.Active c.platform (kterm t))
    (h : initCheck (tables c) [([c.platform], [kterm t])] = .ok ()) {o : String} (ho : o ∈ t.action) :
    o ∈ ["accept", "deny", "reject", "next", "reject-with-tcp-rst"] := by
  refine Classical.byContradiction fun hn => ?_
  have hg : ∀ e ∈ (tables c).subTokens, e.1 ∈ (tables c).tokens := subTokens_ok c hc
  have hr : ∃ l ok, wordsVal t.action = .words l ∧ (tables c).subTokens.lookup "action" = some ok ∧ ".*" ∉ ok ∧
      ∃ w ∈ l, w ∉ ok := by
    refine ⟨t.action, ["accept", "deny", "reject", "next", "reject-with-tcp-rst"], mem_wordsVal ho, rfl,
      by decide, o, ho, hn⟩
  have := (Props.C35_refused_partial hg [([c.platform], [kterm t])]).2
    ⟨_, List.mem_singleton.2 rfl, List.mem_singleton.2 rfl, _, List.mem_singleton.2 rfl, ha,
      ("action", wordsVal t.action), by simp [kterm, attrsOf], .inr hr, fun _ => .inr hr⟩
  rw [h] at this
  cases this

theorem onPlatform_iff {c : Cfg} {t : Term} : onPlatform c.platform t = true ↔ Spec.Active c.platform (kterm t) := by
  unfold onPlatform Spec.Active kterm
  simp only [Bool.and_eq_true, Bool.or_eq_true, List.isEmpty_iff, List.contains_iff_mem, Bool.not_eq_true',
    Bool.and_eq_false_iff]
  refine and_congr Iff.rfl ?_
  constructor
  · rintro (h | h)
    · have : t.platformExclude = [] := by simpa using h
      rw [this]; simp
    · simpa using h
  · intro h
    exact .inr (by simpa using h)

end Cisco
end Verif
