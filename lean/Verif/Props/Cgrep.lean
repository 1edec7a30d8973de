import Verif.Lemmas.Cgrep

/-!
Property theorems C142-C148: tools/cgrep.py, the command line tool that searches definitions.
-/

namespace Verif.Props
open Verif Verif.Spec Verif.Naming Verif.PyStr Verif.Lemmas Verif.Lemmas.CgrepL
open Verif.Cgrep (Db checkEncapsulated tokenHasIps compareIpToken ipParents groupDiff compareTokens getServices
  showObject showServices netSet)
open Verif.Spec.Cgrep (NetsOk SvcsOk Address Contains Holds Shown Keeps)

/-! ### definitions for the examples -/

/-- three network tokens, one of which names the others -/
def cgNets : Defs :=
  [("NET".toList, ["10.0.0.0/8 # ten".toList]), ("LAN".toList, ["192.168.1.0/24".toList]),
   ("ALL".toList, ["NET".toList, "LAN".toList])]

/-- the addresses that are asked for -/
def cgStrict : Str → Option Net := fun s =>
  if s = "192.168.1.5".toList then some { ver := .v4, addr := 0xc0a80105, plen := 32 }
  else if s = "10.0.0.1".toList then some { ver := .v4, addr := 0x0a000001, plen := 32 }
  else if s = "fe80::1".toList then some { ver := .v6, addr := 0xfe800000000000000000000000000001, plen := 128 }
  else none

/-- the definitions of the examples -/
def cgDb : Db := { nets := cgNets, svcs := exSvcs2, ip := exIp, strict := cgStrict }

theorem cgNets_ok : NetsOk cgNets exIp where
  items := itemsOk_of (by decide)
  nodup := by decide
  dots := exIp_dotOrColon
  wf := exIp_wf
  names := by
    intro t ht
    have : ∀ t ∈ keys cgNets, alphaHead t = true ∧ exIp t = none := by decide
    exact ⟨alphaHead_iff.1 (this t ht).1, (this t ht).2⟩
  words := by decide
  digits := by
    intro e he i hi v hv hs
    have : ∀ e ∈ cgNets, ∀ i ∈ e.2, (exIp (itemTok i)).isSome → digitHead (itemTok i) = true := by decide
    rw [← itemTok_item hv] at hs ⊢
    exact digitHead_iff.1 (this e he i hi hs)
  noloop := noLoop_of (fun s => if s = "ALL".toList then 2 else if s ∈ ["NET".toList, "LAN".toList] then 1 else 0)
    (by decide)
  defined := fun t ht => fullyDefined_of (by decide) ht
  bare := by
    intro e he i hi v hv hk
    have : ∀ e ∈ cgNets, ∀ i ∈ e.2, itemTok i ∈ keys cgNets → i = itemTok i := by decide
    rw [← itemTok_item hv] at hk ⊢
    exact this e he i hi hk

theorem cg_lan5 : Address cgStrict "192.168.1.5".toList { ver := .v4, addr := 0xc0a80105, plen := 32 } :=
  ⟨digitHead_iff.1 (by decide), by decide, ⟨by decide, by decide, by decide⟩⟩

theorem cg_ten1 : Address cgStrict "10.0.0.1".toList { ver := .v4, addr := 0x0a000001, plen := 32 } :=
  ⟨digitHead_iff.1 (by decide), by decide, ⟨by decide, by decide, by decide⟩⟩

/-! ### C142: "fully encapsulates" -/

/-- C142: whatever the definitions, when the tool says that one token fully encapsulates another, every
address of the other is an address of the one. -/
theorem C142_sound {db : Db} (hi : ItemsOk db.nets) (hip : DotOrColon db.ip)
    (hwf : ∀ v a, db.ip v = some a → WF a) {first second : Str} (h1 : Word first) (h2 : Word second)
    (h : checkEncapsulated db "network".toList first second = .ok true) :
    ∀ v x, Holds db.nets db.ip first v x → Holds db.nets db.ip second v x := by
  obtain ⟨l, m, hl, hm, he⟩ := encapsulated_inv h
  have el := getNet_exact hi hip h1 hl
  have em := getNet_exact hi hip h2 hm
  intro v x hx
  rw [← exact_den em]
  exact isSuperNet_sound (exact_wf hwf em) (exact_wf hwf el) (by rw [← inside_super, ← he]) v x ((exact_den el v x).2 hx)

/-- C142 (partial): for defined tokens of searchable definitions the answer is exact when no two networks of
the second token are the two halves of one network. Missing: without that the tool may say no although all
addresses are contained (`C142_refuted`). -/
theorem C142_exact_partial {db : Db} (h : NetsOk db.nets db.ip) {first second : Str}
    (h1 : first ∈ keys db.nets) (h2 : second ∈ keys db.nets)
    (hsib : ∀ a s b s', NetOf db.nets db.ip second a s → NetOf db.nets db.ip second b s' → ¬ Siblings a b) :
    ∃ b, checkEncapsulated db "network".toList first second = .ok b ∧
      (b = true ↔ ∀ v x, Holds db.nets db.ip first v x → Holds db.nets db.ip second v x) := by
  obtain ⟨l, hl, el⟩ := resolve h h1
  obtain ⟨m, hm, em⟩ := resolve h h2
  refine ⟨_, encapsulated_eq hl hm, ?_, ?_⟩
  · intro hb v x hx
    rw [← exact_den em]
    exact isSuperNet_sound (exact_wf h.wf em) (exact_wf h.wf el) (by rw [← inside_super]; exact hb) v x
      ((exact_den el v x).2 hx)
  · intro hall
    rw [inside_super]
    refine isSuperNet_complete (exact_wf h.wf em) (exact_wf h.wf el) ?_ ?_
    · intro a ha b hb hs
      obtain ⟨a', s, ha1, ha2, _⟩ := em.1 a ha
      obtain ⟨b', s', hb1, hb2, _⟩ := em.1 b hb
      apply hsib a' s b' s' ha1 hb1
      unfold block at ha2 hb2
      simp only [Prod.mk.injEq] at ha2 hb2
      unfold Siblings at hs ⊢
      rw [← ha2.1, ← ha2.2.1, ← ha2.2.2, ← hb2.1, ← hb2.2.1, ← hb2.2.2]
      exact hs
    · intro v x hx
      rw [exact_den em]
      exact hall v x ((exact_den el v x).1 hx)

theorem cg_sib : ∀ a s b s', NetOf cgNets exIp "ALL".toList a s → NetOf cgNets exIp "ALL".toList b s' →
    ¬ Siblings a b := by
  intro a s b s' ha hb hs
  obtain ⟨l, hl, el⟩ := resolve cgNets_ok (t := "ALL".toList) (by decide)
  have hl' : getNet cgNets exIp "ALL".toList = .ok
      [{ ver := .v4, addr := 0x0a000000, plen := 8, text := "ten".toList, token := "NET", parent := "ALL" },
       { ver := .v4, addr := 0xc0a80100, plen := 24, token := "LAN", parent := "ALL" }] := by decide
  rw [hl] at hl'; cases hl'
  obtain ⟨n, hn, hnb, _⟩ := el.2 a s ha
  obtain ⟨m, hm, hmb, _⟩ := el.2 b s' hb
  unfold block at hnb hmb
  simp only [Prod.mk.injEq] at hnb hmb
  have hp : n.plen = m.plen := by rw [hnb.2.2, hmb.2.2]; exact hs.2.1
  have ha' : m.addr = n.addr + 2 ^ (n.ver.bits - n.plen) := by
    rw [hmb.2.1, hnb.2.1, hnb.1, hnb.2.2]; exact hs.2.2.2.1
  simp only [List.mem_cons, List.not_mem_nil, or_false] at hn hm
  rcases hn with rfl | rfl <;> rcases hm with rfl | rfl
  · exact absurd ha' (by decide)
  · exact absurd hp (by decide)
  · exact absurd hp (by decide)
  · exact absurd ha' (by decide)

example : NetsOk cgDb.nets cgDb.ip ∧ "LAN".toList ∈ keys cgDb.nets ∧ "ALL".toList ∈ keys cgDb.nets ∧
    (∀ a s b s', NetOf cgDb.nets cgDb.ip "ALL".toList a s → NetOf cgDb.nets cgDb.ip "ALL".toList b s' → ¬ Siblings a b) ∧
    checkEncapsulated cgDb "network".toList "LAN".toList "ALL".toList = .ok true ∧
    checkEncapsulated cgDb "network".toList "ALL".toList "LAN".toList = .ok false :=
  ⟨cgNets_ok, by decide, by decide, cg_sib, by decide, by decide⟩

/-- the halves of the refutation -/
def cgHalves : Str → Option Net := fun s =>
  if s = "10.0.0.0/8".toList then some (ip4 10 0 0 0 8)
  else if s = "10.0.0.0/9".toList then some (ip4 10 0 0 0 9)
  else if s = "10.128.0.0/9".toList then some (ip4 10 128 0 0 9)
  else none

/-- C142 refuted: `HALVES` has exactly the addresses of `TEN`, but the tool says that it does not fully
encapsulate it. -/
theorem C142_refuted : ∃ db : Db,
    checkEncapsulated db "network".toList "TEN".toList "HALVES".toList = .ok false ∧
    ∃ l m, getNet db.nets db.ip "TEN".toList = .ok l ∧ getNet db.nets db.ip "HALVES".toList = .ok m ∧ SameDen l m := by
  refine ⟨{ nets := [("TEN".toList, ["10.0.0.0/8".toList]), ("HALVES".toList, ["10.0.0.0/9".toList, "10.128.0.0/9".toList])],
            svcs := [], ip := cgHalves, strict := cgHalves }, by decide,
    [{ ip4 10 0 0 0 8 with token := "TEN", parent := "TEN" }],
    [{ ip4 10 0 0 0 9 with token := "HALVES", parent := "HALVES" },
     { ip4 10 128 0 0 9 with token := "HALVES", parent := "HALVES" }], by decide, by decide, ?_⟩
  intro v x
  have hone : ∀ a : Net, Den [a] v x ↔ Mem a v x := fun a => by simp [Den]
  have htwo : ∀ a b : Net, Den [a, b] v x ↔ Mem a v x ∨ Mem b v x := fun a b => by simp [Den]
  rw [hone, htwo]
  show (Ver.v4 = v ∧ 167772160 ≤ x ∧ x < 167772160 + 16777216) ↔
    ((Ver.v4 = v ∧ 167772160 ≤ x ∧ x < 167772160 + 8388608) ∨ (Ver.v4 = v ∧ 176160768 ≤ x ∧ x < 176160768 + 8388608))
  constructor
  · rintro ⟨h, h1, h2⟩
    by_cases hx : x < 176160768
    · exact .inl ⟨h, h1, by omega⟩
    · exact .inr ⟨h, by omega, by omega⟩
  · rintro (⟨h, h1, h2⟩ | ⟨h, h1, h2⟩)
    · exact ⟨h, by omega, by omega⟩
    · exact ⟨h, by omega, by omega⟩

/-- C142 refuted for services: two service tokens with at least one port each cannot be compared at all. -/
theorem C142_refuted_service {db : Db} {first second : Str} {l m : List Str}
    (h1 : getService db.svcs first = .ok l) (h2 : getService db.svcs second = .ok m) (hl : l ≠ []) (hm : m ≠ []) :
    checkEncapsulated db "service".toList first second = .error .attributeError := by
  unfold checkEncapsulated Cgrep.getPorts Cgrep.each
  rw [if_neg (by decide), if_pos (by decide), h1, h2]
  cases l with
  | nil => exact absurd rfl hl
  | cons a as =>
    cases m with
    | nil => exact absurd rfl hm
    | cons b bs => rfl

example : getService cgDb.svcs "WEB".toList = .ok ["80-81/tcp".toList] ∧
    checkEncapsulated cgDb "service".toList "WEB".toList "WEB".toList = .error .attributeError := by decide

/-- C142 (partial): an answer that is given about service tokens is right. Missing: answers about two tokens with ports
(`C142_refuted_service`). -/
theorem C142_service_partial {db : Db} {first second : Str} {l m : List Str} {b : Bool}
    (h1 : getService db.svcs first = .ok l) (h2 : getService db.svcs second = .ok m)
    (h : checkEncapsulated db "service".toList first second = .ok b) : b = true ↔ ∀ v ∈ l, v ∈ m := by
  unfold checkEncapsulated Cgrep.getPorts Cgrep.each at h
  rw [if_neg (by decide), if_pos (by decide), h1, h2] at h
  cases l with
  | nil =>
    cases h
    simp
  | cons a as =>
    cases m with
    | nil =>
      cases h
      exact ⟨nofun, fun h => (List.not_mem_nil (h a List.mem_cons_self)).elim⟩
    | cons c cs => cases h

/-- A token without ports, by a definition of nothing but a comment. -/
example : ∃ db : Db, getService db.svcs "NONE".toList = .ok [] ∧ getService db.svcs "WEB".toList = .ok ["80-81/tcp".toList] ∧
    checkEncapsulated db "service".toList "NONE".toList "WEB".toList = .ok true ∧
    checkEncapsulated db "service".toList "WEB".toList "NONE".toList = .ok false :=
  ⟨{ cgDb with svcs := ("NONE".toList, []) :: cgDb.svcs }, by decide⟩

/-! ### C143: is the address in the token? -/

/-- C143 (partial): for searchable definitions, a defined token and addresses that start with a digit, the
report is about the last address and says "in" exactly if one of the token's networks contains all of it.
Missing: nothing is said about the other addresses (`C143_refuted_first`), and addresses that start with a
letter are never found (`C143_refuted_letter`). -/
theorem C143_partial {db : Db} (h : NetsOk db.nets db.ip) {token : Str} (ht : token ∈ keys db.nets)
    {ips : List Str} {q : Str} {a : Net} (hips : ∀ i ∈ ips, ∃ b, Address db.strict i b)
    (hq : Address db.strict q a) :
    ∃ b, tokenHasIps db token (ips ++ [q]) = .ok (some (q, token, b)) ∧
      (b = true ↔ Contains db.nets db.ip token a) := by
  obtain ⟨l, hl, _⟩ := resolve h ht
  obtain ⟨r, hr, _, hm⟩ := parents_address h hq
  refine ⟨r.contains token, ?_, by rw [List.contains_iff_mem, hm]⟩
  unfold tokenHasIps
  rw [getNets_one hl]
  dsimp only
  unfold compareIpToken
  have key : ∀ ips : List Str, (∀ i ∈ ips, ∃ b, Address db.strict i b) →
      ∃ pre, Cgrep.each (fun ip => do
        let rval ← getIpParentsStr db.nets db.ip db.strict ip
        Except.ok (ip, token, rval.contains token)) (ips ++ [q]) = .ok (pre ++ [(q, token, r.contains token)]) := by
    intro ips
    induction ips with
    | nil =>
      intro _
      refine ⟨[], ?_⟩
      simp only [List.nil_append, Cgrep.each, hr]
      rfl
    | cons i is ih =>
      intro hi
      obtain ⟨b, hb⟩ := hi i (List.mem_cons_self ..)
      obtain ⟨r', hr', _⟩ := parents_address h hb
      obtain ⟨pre, hp⟩ := ih fun j hj => hi j (List.mem_cons_of_mem _ hj)
      refine ⟨(i, token, r'.contains token) :: pre, ?_⟩
      rw [List.cons_append, Cgrep.each, hp, hr']
      rfl
  obtain ⟨pre, hp⟩ := key ips hips
  rw [hp]
  show Except.ok (pre ++ [(q, token, r.contains token)]).getLast? = _
  rw [List.getLast?_append]
  rfl

/-- C143: a token that is not defined is reported as such. -/
theorem C143_undefined {db : Db} {token : Str} (ht : Word token) (hn : token ∉ keys db.nets) (ips : List Str) :
    tokenHasIps db token ips = .ok none := by
  have : getNet db.nets db.ip token = .error (.raised "UndefinedAddressError") := by
    unfold getNet getNetF
    simp only [headTok_word ht]
    have hl : db.nets.lookup token = none := by
      cases hh : db.nets.lookup token with
      | none => rfl
      | some items => exact absurd (lookup_key hh) hn
    rw [hl]
  unfold tokenHasIps
  rw [getNets_one_err this]
  rfl

example : NetsOk cgDb.nets cgDb.ip ∧ "LAN".toList ∈ keys cgDb.nets ∧ Word "DMZ".toList ∧
    "DMZ".toList ∉ keys cgDb.nets ∧
    Address cgDb.strict "192.168.1.5".toList { ver := .v4, addr := 0xc0a80105, plen := 32 } ∧
    tokenHasIps cgDb "LAN".toList ["192.168.1.5".toList] = .ok (some ("192.168.1.5".toList, "LAN".toList, true)) ∧
    tokenHasIps cgDb "NET".toList ["192.168.1.5".toList] = .ok (some ("192.168.1.5".toList, "NET".toList, false)) :=
  ⟨cgNets_ok, by decide, by decide, by decide, cg_lan5, by decide, by decide⟩

/-- C143 refuted: asked about two addresses, of which the first is in the token, the tool only reports that
the second is not. -/
theorem C143_refuted_first : ∃ (db : Db) (token i j : Str) (a : Net), NetsOk db.nets db.ip ∧
    Address db.strict i a ∧ Contains db.nets db.ip token a ∧
    tokenHasIps db token [i, j] = .ok (some (j, token, false)) := by
  refine ⟨cgDb, "LAN".toList, "192.168.1.5".toList, "10.0.0.1".toList, _, cgNets_ok, cg_lan5, ?_, by decide⟩
  refine ⟨{ ver := .v4, addr := 0xc0a80100, plen := 24 }, "LAN".toList, ⟨.refl, "192.168.1.0/24".toList,
    ⟨["192.168.1.0/24".toList], "192.168.1.0/24".toList, rfl, by decide, by decide⟩, by decide⟩, ?_⟩
  rintro v x ⟨h1, h2, h3⟩
  exact ⟨h1, Nat.le_trans (by decide) h2, Nat.lt_of_lt_of_le h3 (by decide)⟩

/-- C143 refuted: `LINK` contains `fe80::1`, but the tool reports that it does not. -/
theorem C143_refuted_letter : ∃ (db : Db) (n a : Net), getNet db.nets db.ip "LINK".toList = .ok [n] ∧
    db.strict "fe80::1".toList = some a ∧ (∀ v x, Mem a v x → Mem n v x) ∧
    tokenHasIps db "LINK".toList ["fe80::1".toList] = .ok (some ("fe80::1".toList, "LINK".toList, false)) := by
  refine ⟨{ nets := [("LINK".toList, ["fe80::/10".toList])], svcs := [], ip := exIp, strict := cgStrict },
    _, { ver := .v6, addr := 0xfe800000000000000000000000000001, plen := 128 }, rfl, by decide, ?_, by decide⟩
  rintro v x ⟨h1, h2, h3⟩
  exact ⟨h1, Nat.le_trans (by decide) h2, Nat.lt_of_lt_of_le h3 (by decide)⟩

/-! ### C144: the tokens of an address -/

/-- C144 (partial): for searchable definitions and an address that starts with a digit, `-i` lists exactly
the tokens one of whose networks contains all of the address, each once for every token that mentions it,
with exactly those of its networks that contain the address, in their order; the lines come by the longest
such network, longest first. Missing: the conditions on the definitions (`C143_refuted_letter`,
`C26_ip_refuted`). -/
theorem C144_partial {db : Db} (h : NetsOk db.nets db.ip) {q : Str} {a : Net} (hq : Address db.strict q a) :
    ∃ r, ipParents db q = .ok r ∧
      (∀ name ms, (name, ms) ∈ r ↔ ∃ t ns, Shown db.nets db.ip a name t ∧
        getNet db.nets db.ip t = .ok ns ∧ Keeps a ns ms) ∧
      r.Pairwise (fun x y => ∀ n ∈ y.2, ∃ m ∈ x.2, n.plen ≤ m.plen) :=
  ipParents_spec h hq

example : (ipParents cgDb "192.168.1.5".toList).map (·.map fun r => (String.ofList r.1, r.2.map (·.plen))) =
    .ok [("ALL", [24]), ("ALL -> LAN", [24])] := by decide

/-! ### C145: the difference of two addresses -/

/-- C145 (partial): `-g` splits the lines that `-i` shows for the two addresses into those shown for both,
for the first only and for the second only, each sorted and without repetition. Missing: the conditions of
C144. -/
theorem C145_partial {db : Db} (h : NetsOk db.nets db.ip) {q1 q2 : Str} {a1 a2 : Net}
    (h1 : Address db.strict q1 a1) (h2 : Address db.strict q2 a2) :
    ∃ c d1 d2, groupDiff db q1 q2 = .ok (c, d1, d2) ∧
      (∀ name, name ∈ c ↔ (∃ t, Shown db.nets db.ip a1 name t) ∧ ∃ t, Shown db.nets db.ip a2 name t) ∧
      (∀ name, name ∈ d1 ↔ (∃ t, Shown db.nets db.ip a1 name t) ∧ ¬ ∃ t, Shown db.nets db.ip a2 name t) ∧
      (∀ name, name ∈ d2 ↔ (∃ t, Shown db.nets db.ip a2 name t) ∧ ¬ ∃ t, Shown db.nets db.ip a1 name t) ∧
      c.Pairwise (fun x y => strLt x y = true) ∧ d1.Pairwise (fun x y => strLt x y = true) ∧
      d2.Pairwise (fun x y => strLt x y = true) := by
  have names : ∀ {q : Str} {a : Net}, Address db.strict q a → ∃ r, ipParents db q = .ok r ∧
      ∀ name, name ∈ r.map (·.1) ↔ ∃ t, Shown db.nets db.ip a name t := by
    intro q a hq
    obtain ⟨r, hr, hm, _⟩ := ipParents_spec h hq
    refine ⟨r, hr, fun name => ?_⟩
    rw [List.mem_map]
    constructor
    · rintro ⟨⟨n, ms⟩, hx, rfl⟩
      obtain ⟨t, _, hs, _⟩ := (hm n ms).1 hx
      exact ⟨t, hs⟩
    · rintro ⟨t, hs⟩
      obtain ⟨ns, hns, hex⟩ := resolve h (netOf_key hs.1.choose_spec.choose_spec.1)
      exact ⟨(name, _), (hm _ _).2 ⟨t, ns, hs, hns, (highest_spec hq.2.2 (exact_wf h.wf hex)).1⟩, rfl⟩
  obtain ⟨r1, e1, m1⟩ := names h1
  obtain ⟨r2, e2, m2⟩ := names h2
  refine ⟨_, _, _, by unfold groupDiff; rw [e1, e2]; rfl, ?_, ?_, ?_, sortedSet_sorted _, sortedSet_sorted _,
    sortedSet_sorted _⟩
  · intro name
    rw [mem_sortedSet, List.mem_filter, m1, List.contains_iff_mem, m2]
  · intro name
    rw [mem_sortedSet, List.mem_filter, m1, Bool.not_eq_true', ← Bool.not_eq_true, List.contains_iff_mem, m2]
  · intro name
    rw [mem_sortedSet, List.mem_filter, m2, Bool.not_eq_true', ← Bool.not_eq_true, List.contains_iff_mem, m1]

example : (groupDiff cgDb "192.168.1.5".toList "10.0.0.1".toList).map
    (fun r => (r.1.map String.ofList, r.2.1.map String.ofList, r.2.2.map String.ofList)) =
    .ok (["ALL"], ["ALL -> LAN"], ["ALL -> NET"]) := by decide

/-! ### C146: union and difference of two tokens -/

theorem netSet_block {l : List Net} (hw : ∀ n ∈ l, WF n) :
    (∀ b, (∃ n ∈ netSet l, block n = b) ↔ ∃ n ∈ l, block n = b) ∧
      (netSet l).Pairwise (fun a b => block a ≠ block b) ∧ ∀ n ∈ netSet l, n ∈ l := by
  induction l with
  | nil => exact ⟨fun b => by simp [netSet], by simp [netSet], by simp [netSet]⟩
  | cons n l ih =>
    obtain ⟨i1, i2, i3⟩ := ih fun m hm => hw m (List.mem_cons_of_mem _ hm)
    have hn := hw n (List.mem_cons_self ..)
    have heq : ∀ m ∈ netSet l, ((!n.eqv m) = true ↔ block n ≠ block m) := by
      intro m hm
      rw [Bool.not_eq_true', ← Bool.not_eq_true, eqv_iff hn (hw m (List.mem_cons_of_mem _ (i3 m hm)))]
    unfold netSet
    refine ⟨fun b => ⟨?_, ?_⟩, ?_, ?_⟩
    · rintro ⟨m, hm, hb⟩
      rcases List.mem_cons.1 hm with rfl | hm
      · exact ⟨m, List.mem_cons_self .., hb⟩
      · exact ⟨m, List.mem_cons_of_mem _ (i3 m (List.mem_filter.1 hm).1), hb⟩
    · rintro ⟨m, hm, hb⟩
      by_cases hnb : block n = b
      · exact ⟨n, List.mem_cons_self .., hnb⟩
      · rcases List.mem_cons.1 hm with rfl | hm
        · exact absurd hb hnb
        · obtain ⟨k, hk, hkb⟩ := (i1 b).2 ⟨m, hm, hb⟩
          exact ⟨k, List.mem_cons_of_mem _ (List.mem_filter.2 ⟨hk, (heq k hk).2 (by rw [hkb]; exact hnb)⟩), hkb⟩
    · rw [List.pairwise_cons]
      refine ⟨fun m hm => ?_, i2.filter _⟩
      obtain ⟨hm1, hm2⟩ := List.mem_filter.1 hm
      exact (heq m hm1).1 hm2
    · intro m hm
      rcases List.mem_cons.1 hm with rfl | hm
      · exact List.mem_cons_self ..
      · exact List.mem_cons_of_mem _ (i3 m (List.mem_filter.1 hm).1)

/-- C146: the union that `-c` prints has exactly the networks of either token, each once. -/
theorem C146_union {db : Db} (hi : ItemsOk db.nets) (hip : DotOrColon db.ip)
    (hwf : ∀ v a, db.ip v = some a → WF a) {t1 t2 : Str} (h1 : Word t1) (h2 : Word t2) {u d : List Net}
    (h : compareTokens db t1 t2 = .ok (u, d)) :
    (∀ b, (∃ n ∈ u, block n = b) ↔ ∃ a s, (NetOf db.nets db.ip t1 a s ∨ NetOf db.nets db.ip t2 a s) ∧ block a = b) ∧
      u.Pairwise (fun a b => block a ≠ block b) := by
  unfold compareTokens at h
  obtain ⟨l, hl, h⟩ := bind_ok h
  obtain ⟨m, hm, h⟩ := bind_ok h
  cases h
  have el := getNet_exact hi hip h1 hl
  have em := getNet_exact hi hip h2 hm
  have hw : ∀ n ∈ l ++ m, WF n := fun n hn => (List.mem_append.1 hn).elim (exact_wf hwf el n) (exact_wf hwf em n)
  obtain ⟨b1, b2, _⟩ := netSet_block hw
  refine ⟨fun b => ?_, b2⟩
  rw [b1]
  constructor
  · rintro ⟨n, hn, hb⟩
    rcases List.mem_append.1 hn with hn | hn
    · obtain ⟨a, s, ho, hab, _⟩ := el.1 n hn
      exact ⟨a, s, .inl ho, by rw [← hab, hb]⟩
    · obtain ⟨a, s, ho, hab, _⟩ := em.1 n hn
      exact ⟨a, s, .inr ho, by rw [← hab, hb]⟩
  · rintro ⟨a, s, ho | ho, hb⟩
    · obtain ⟨n, hn, hab, _⟩ := el.2 a s ho
      exact ⟨n, List.mem_append.2 (.inl hn), by rw [hab, hb]⟩
    · obtain ⟨n, hn, hab, _⟩ := em.2 a s ho
      exact ⟨n, List.mem_append.2 (.inr hn), by rw [hab, hb]⟩

/-- C146 refuted: what `-c` prints as the difference is always the whole union, shared networks included. -/
theorem C146_refuted {db : Db} {t1 t2 : Str} {u d : List Net} (h : compareTokens db t1 t2 = .ok (u, d)) : d = u := by
  unfold compareTokens at h
  obtain ⟨l, hl, h⟩ := bind_ok h
  obtain ⟨m, hm, h⟩ := bind_ok h
  cases h
  rw [List.filter_eq_self]
  have hsub : ∀ l : List Net, ∀ n ∈ netSet l, n ∈ l := by
    intro l
    induction l with
    | nil => simp [netSet]
    | cons k l ih =>
      intro n hn
      unfold netSet at hn
      rcases List.mem_cons.1 hn with rfl | hn
      · exact List.mem_cons_self ..
      · exact List.mem_cons_of_mem _ (ih n (List.mem_filter.1 hn).1)
  have hself : ∀ n : Net, n.eqv n = true := by intro n; unfold Net.eqv; simp
  have hel : ∀ (n : Net) (d : List Net), n ∈ d → Cgrep.elem n d = true :=
    fun n d hn => List.any_eq_true.2 ⟨n, hn, hself n⟩
  intro n hn
  rcases List.mem_append.1 (hsub _ n hn) with h | h
  · rw [hel n l h]; simp
  · rw [hel n m h]; simp

example : (compareTokens cgDb "ALL".toList "LAN".toList).map (fun r => (r.1.map (·.plen), r.2.map (·.plen))) =
    .ok ([8, 24], [8, 24]) := by decide

/-! ### C147: the services of a port -/

/-- C147 (partial): `-p` takes the port and the protocol (a word of letters) in either order, and lists,
sorted, exactly the tokens whose `GetService` list has a value covering the port for that protocol;
`UndefinedPortError` when there is none. Missing: the conditions of C26 on the service definitions. -/
theorem C147_partial {db : Db} (hi : ItemsOk db.svcs) (hn : (keys db.svcs).Nodup) (hsv : ServiceValues db.svcs)
    (hkw : ∀ t ∈ keys db.svcs, Word t) (hloop : ∀ t ∈ keys db.svcs, NoCycle' db.svcs SvcLeaf t)
    (hdef : ∀ t ∈ keys db.svcs, FullyDefined db.svcs SvcLeaf t)
    {q w : Str} {n : Nat} (hq : Dec q n) (hw : w ≠ [] ∧ ∀ c ∈ w, ('a' ≤ c ∧ c ≤ 'z') ∨ ('A' ≤ c ∧ c ≤ 'Z')) :
    getServices db q w = getServices db w q ∧
    ((∃ l, getServices db q w = .ok (q, w, l) ∧ l ≠ [] ∧ l.Pairwise (fun a b => strLt a b = true) ∧
      ∀ t, t ∈ l ↔ ∃ vs, getService db.svcs t = .ok vs ∧ t ∈ keys db.svcs ∧ ∃ v ∈ vs, Spec.Covers v n w) ∨
    (getServices db q w = .error (.raised "UndefinedPortError") ∧
      ∀ t ∈ keys db.svcs, ∀ vs, getService db.svcs t = .ok vs → ∀ v ∈ vs, ¬ Spec.Covers v n w)) := by
  obtain ⟨hq1, hq2⟩ := Port.dec_digits hq
  have hqd : Cgrep.isDigitS q = true := by
    unfold Cgrep.isDigitS
    rw [Bool.and_eq_true, List.all_eq_true]
    refine ⟨by simpa using hq1, fun c hc => ?_⟩
    have := hq2 c hc
    unfold isDigit
    simp only [Digit] at this
    simp only [Bool.and_eq_true, decide_eq_true_eq, Char.le_def, UInt32.le_iff_toNat_le]
    exact this
  have alpha_not_digit : ∀ c : Char, (('a' ≤ c ∧ c ≤ 'z') ∨ ('A' ≤ c ∧ c ≤ 'Z')) → ¬ ('0' ≤ c ∧ c ≤ '9') := by
    intro c h1 h2
    simp only [Char.le_def, UInt32.le_iff_toNat_le] at h1 h2
    have e1 : ('a' : Char).val.toNat = 97 := rfl
    have e2 : ('A' : Char).val.toNat = 65 := rfl
    have e3 : ('9' : Char).val.toNat = 57 := rfl
    rw [e1, e2] at h1
    rw [e3] at h2
    omega
  have hqa : Cgrep.isAlphaS q = false := by
    cases q with
    | nil => exact absurd rfl hq1
    | cons c cs =>
      unfold Cgrep.isAlphaS
      have hc := hq2 c (List.mem_cons_self ..)
      have : isAlphaA c = false := by
        rw [← Bool.not_eq_true]
        intro ha
        refine alpha_not_digit c ?_ hc
        unfold isAlphaA at ha
        simpa using ha
      simp [this]
  have hwa : Cgrep.isAlphaS w = true := by
    unfold Cgrep.isAlphaS
    rw [Bool.and_eq_true, List.all_eq_true]
    refine ⟨by simpa using hw.1, fun c hc => ?_⟩
    have := hw.2 c hc
    unfold isAlphaA
    simpa using this
  have e1 : getServices db q w = (do
      let l ← getPortParents db.svcs q w
      Except.ok (q, w, l)) := by
    unfold getServices
    dsimp only
    rw [hqa]
    rfl
  have e2 : getServices db w q = (do
      let l ← getPortParents db.svcs q w
      Except.ok (q, w, l)) := by
    unfold getServices
    dsimp only
    rw [hwa, hqd]
    rfl
  have hww : Word w := by
    refine ⟨hw.1, fun c hc => ?_⟩
    have h := hw.2 c hc
    constructor
    · rw [← Bool.not_eq_true]
      intro hs
      unfold isSpace at hs
      simp only [Char.le_def, UInt32.le_iff_toNat_le] at h
      have e1 : ('a' : Char).val.toNat = 97 := rfl
      have e2 : ('z' : Char).val.toNat = 122 := rfl
      have e3 : ('A' : Char).val.toNat = 65 := rfl
      have e4 : ('Z' : Char).val.toNat = 90 := rfl
      rw [e1, e2, e3, e4] at h
      simp at hs
      have hc' : c.toNat = c.val.toNat := rfl
      omega
    · rintro rfl
      revert h; decide
  have hws : '/' ∉ w := by
    intro hc
    have := hw.2 _ hc
    revert this; decide
  refine ⟨by rw [e1, e2], ?_⟩
  rcases C26_port_partial hi hn hsv hkw hloop hdef hq hww hws with ⟨l, h1, h2, h3, h4⟩ | ⟨h1, h2⟩
  · exact .inl ⟨l, by rw [e1, h1]; rfl, h2, h3, h4⟩
  · exact .inr ⟨by rw [e1, h1]; rfl, h2⟩

example : (getServices cgDb "tcp".toList "80".toList).map (fun r => (String.ofList r.1, String.ofList r.2.1,
    r.2.2.map String.ofList)) = .ok ("80", "tcp", ["HTTP", "WEB"]) ∧ Dec "80".toList 80 := ⟨by decide, dec80⟩

/-! ### C148: the contents of tokens -/

/-- C148: an object that is not defined is reported as invalid. -/
theorem C148_undefined {db : Db} {obj : Str} (ht : Word obj) (hn : obj ∉ keys db.nets) :
    showObject db obj = .ok none := by
  have : getNet db.nets db.ip obj = .error (.raised "UndefinedAddressError") := by
    unfold getNet getNetF
    simp only [headTok_word ht]
    have hl : db.nets.lookup obj = none := by
      cases hh : db.nets.lookup obj with
      | none => rfl
      | some items => exact absurd (lookup_key hh) hn
    rw [hl]
  unfold showObject
  rw [getNets_one_err this]
  rfl

/-- C148 refuted: `-o` never lists the networks of a token that has any; it dies with `AttributeError`. -/
theorem C148_refuted {db : Db} {obj : Str} {l : List Net} (h : getNet db.nets db.ip obj = .ok l) (hl : l ≠ []) :
    showObject db obj = .error .attributeError := by
  unfold showObject
  rw [getNets_one h]
  cases l with
  | nil => exact absurd rfl hl
  | cons a as => rfl

/-- C148 (partial): for acyclic, fully defined services `-s` lists, for each token, exactly the
port/protocol values reachable from it, ascending. Missing: the same for `-o`, which is false
(`C148_refuted`). -/
theorem C148_services_partial {db : Db} (hi : ItemsOk db.svcs) {svcs : List Str}
    (hs : ∀ t ∈ svcs, Word t ∧ NoCycle' db.svcs SvcLeaf t ∧ FullyDefined db.svcs SvcLeaf t) :
    ∃ r, showServices db svcs = .ok (some r) ∧ r.map (·.1) = svcs ∧
      ∀ e ∈ r, e.2.Pairwise (fun a b => strLt a b = true) ∧ ∀ v, v ∈ e.2 ↔ SvcOf db.svcs e.1 v := by
  have key : ∃ r, Cgrep.getPorts db svcs = .ok r ∧ r.map (·.1) = svcs ∧
      ∀ e ∈ r, e.2.Pairwise (fun a b => strLt a b = true) ∧ ∀ v, v ∈ e.2 ↔ SvcOf db.svcs e.1 v := by
    induction svcs with
    | nil => exact ⟨[], rfl, rfl, by simp⟩
    | cons t ts ih =>
      obtain ⟨r, h1, h2, h3⟩ := ih fun u hu => hs u (List.mem_cons_of_mem _ hu)
      obtain ⟨w1, w2, w3⟩ := hs t (List.mem_cons_self ..)
      obtain ⟨l, e1, e2, e3⟩ := C23_resolves_partial hi w1 w2 w3
      refine ⟨(t, l) :: r, ?_, by rw [List.map_cons, h2], ?_⟩
      · unfold Cgrep.getPorts at h1 ⊢
        unfold Cgrep.each
        rw [e1, h1]
        rfl
      · intro e he
        rcases List.mem_cons.1 he with rfl | he
        · exact ⟨e2, e3⟩
        · exact h3 e he
  obtain ⟨r, h1, h2, h3⟩ := key
  exact ⟨r, by unfold showServices; rw [h1], h2, h3⟩

/-- C148: if one of the services is undefined, or refers to something undefined, and none is defined through itself, the tool says that
a service is invalid. -/
theorem C148_services_undefined {db : Db} (hi : ItemsOk db.svcs) {svcs : List Str}
    (hs : ∀ t ∈ svcs, Word t ∧ NoCycle' db.svcs SvcLeaf t) (hx : ∃ t ∈ svcs, ¬ FullyDefined db.svcs SvcLeaf t) :
    showServices db svcs = .ok none := by
  have key : Cgrep.getPorts db svcs = .error (.raised "UndefinedServiceError") := by
    induction svcs with
    | nil => obtain ⟨t, ht, _⟩ := hx; cases ht
    | cons t ts ih =>
      obtain ⟨w1, w2⟩ := hs t (List.mem_cons_self ..)
      unfold Cgrep.getPorts Cgrep.each
      by_cases hf : FullyDefined db.svcs SvcLeaf t
      · obtain ⟨l, e1, _⟩ := C23_resolves_partial hi w1 w2 hf
        have ih' := ih (fun u hu => hs u (List.mem_cons_of_mem _ hu)) (by
          obtain ⟨u, hu, hn⟩ := hx
          rcases List.mem_cons.1 hu with rfl | hu
          · exact absurd hf hn
          · exact ⟨u, hu, hn⟩)
        unfold Cgrep.getPorts at ih'
        rw [e1, ih']
        rfl
      · rw [C23_undefined_partial hi w1 w2 hf]
        rfl
  unfold showServices
  rw [key]
  rfl

example : showServices cgDb ["WEB".toList, "DNS".toList] = .ok none := by decide

example : Word "DMZ".toList ∧ "DMZ".toList ∉ keys cgDb.nets ∧
    (getNet cgDb.nets cgDb.ip "LAN".toList).map List.length = .ok 1 ∧
    showObject cgDb "LAN".toList = .error .attributeError ∧
    showServices cgDb ["WEB".toList] = .ok (some [("WEB".toList, ["80-81/tcp".toList])]) :=
  ⟨by decide, by decide, by decide, by decide, by decide⟩

end Verif.Props
