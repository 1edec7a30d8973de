import Verif.Lemmas.NacMore

/-!
Property theorems C01-C10 and C51: capirca/lib/nacaddr.py and capirca/utils/iputils.py.
-/

namespace Verif.Props
open Verif Verif.Spec Verif.Nacaddr

/-- Example networks: `a.b.c.d/len` (only used in the examples and counterexamples below). -/
def ip4 (a b c d len : Nat) : Net :=
  { ver := .v4, addr := a * 2 ^ 24 + b * 2 ^ 16 + c * 2 ^ 8 + d, plen := len }

/-- An IPv6 example network `hh00::/len`. -/
def ip6 (h len : Nat) : Net := { ver := .v6, addr := h * 2 ^ 120, plen := len }

instance (n : Net) : Decidable (WF n) :=
  decidable_of_iff (n.plen ≤ n.ver.bits ∧ 2 ^ (n.ver.bits - n.plen) ∣ n.addr ∧
      n.addr + 2 ^ (n.ver.bits - n.plen) ≤ 2 ^ n.ver.bits)
    ⟨fun ⟨a, b, c⟩ => ⟨a, b, c⟩, fun h => ⟨h.plen_le, h.aligned, h.range⟩⟩

instance (n : Net) (v : Ver) (x : Nat) : Decidable (Mem n v x) := by
  unfold Mem; infer_instance

instance (l : List Net) (v : Ver) (x : Nat) : Decidable (Den l v x) := by
  unfold Den; infer_instance

instance (i e : List Net) (v : Ver) (x : Nat) : Decidable (LpmMatch i e v x) := by
  unfold LpmMatch; infer_instance

/-! ### C01 -/

/-- C01: whatever `CollapseAddrList` returns (any complements) denotes the same addresses as the
input. -/
theorem C01_collapse_denotation (l comps r : List Net) (hl : ∀ n ∈ l, WF n)
    (h : collapseAddrList l comps = .ok r) : SameDen r l :=
  (collapseAddrList_spec l comps r hl h).2

/-- C01: without complements `CollapseAddrList` always returns. -/
theorem C01_collapse_total (l : List Net) : ∃ r, collapseAddrList l [] = .ok r :=
  ⟨_, collapse_eq l⟩

/-- C01: with complements it always returns if the inputs are of one family. -/
theorem C01_collapse_total_one_family (l comps : List Net) (v : Ver) (h : ∀ n ∈ l, n.ver = v) :
    ∃ r, collapseAddrList l comps = .ok r :=
  collapseAddrList_total l comps v h

/-- C01, the excluded point: with complements and both families in the input the function can raise
`TypeError` (an IPv4 netmask is compared with an IPv6 netmask). -/
theorem C01_not_total_mixed :
    ∃ l comps : List Net, (∀ n ∈ l ++ comps, WF n) ∧ collapseAddrList l comps = .error .typeError :=
  ⟨[ip4 10 0 0 0 8, ip6 0x20 16], [ip6 0x20 16], by decide, by decide⟩

example : (∀ n ∈ [ip4 10 0 0 0 9, ip4 10 128 0 0 9, ip4 10 0 0 0 8, ip6 0x20 16], WF n) ∧
    collapseAddrList [ip4 10 0 0 0 9, ip4 10 128 0 0 9, ip4 10 0 0 0 8, ip6 0x20 16] [ip4 10 0 0 0 8] =
      .ok [ip4 10 0 0 0 8, ip6 0x20 16] := by
  decide

/-! ### C02 -/

/-- C02: the result is sorted, disjoint and sibling-free. -/
theorem C02_canonical (l r : List Net) (hl : ∀ n ∈ l, WF n) (h : collapseAddrList l [] = .ok r) :
    Canonical r := by
  rw [collapse_eq] at h; cases h
  exact collapse_canonical l hl

/-- C02: two inputs with the same addresses give the same networks. -/
theorem C02_order_independent (l m r s : List Net) (hl : ∀ n ∈ l, WF n) (hm : ∀ n ∈ m, WF n)
    (h : SameDen l m) (hr : collapseAddrList l [] = .ok r) (hs : collapseAddrList m [] = .ok s) :
    r.map block = s.map block := by
  rw [collapse_eq] at hr hs; cases hr; cases hs
  exact canonical_unique (collapse_spec l hl).1 (collapse_spec m hm).1 (collapse_canonical l hl)
    (collapse_canonical m hm)
    (((collapse_spec l hl).2.trans h).trans (collapse_spec m hm).2.symm)

/-- C02: collapsing is idempotent. -/
theorem C02_idempotent (l r s : List Net) (hl : ∀ n ∈ l, WF n) (hr : collapseAddrList l [] = .ok r)
    (hs : collapseAddrList r [] = .ok s) : s.map block = r.map block := by
  have hd := collapseAddrList_spec l [] r hl hr
  exact C02_order_independent r l s r hd.1 hl hd.2 hs hr

example : SameDen [ip4 10 0 0 0 9, ip4 10 128 0 0 9] [ip4 10 0 0 0 8, ip4 10 1 0 0 16] ∧
    collapseAddrList [ip4 10 0 0 0 9, ip4 10 128 0 0 9] [] = .ok [ip4 10 0 0 0 8] := by
  refine ⟨?_, by decide⟩
  exact (C01_collapse_denotation _ [] [ip4 10 0 0 0 8] (by decide) (by decide)).symm.trans
    (C01_collapse_denotation _ [] [ip4 10 0 0 0 8] (by decide) (by decide))

/-! ### C03 -/

/-- C03: no list covering the same addresses is shorter. -/
theorem C03_minimal (l r m : List Net) (hl : ∀ n ∈ l, WF n) (hm : ∀ n ∈ m, WF n)
    (hr : collapseAddrList l [] = .ok r) (h : SameDen m l) : r.length ≤ m.length := by
  rw [collapse_eq] at hr; cases hr
  exact canonical_minimal (collapse_spec l hl).1 hm (collapse_canonical l hl)
    ((collapse_spec l hl).2.trans h.symm)

example : (∀ n ∈ [ip4 10 0 0 0 9, ip4 10 128 0 0 9, ip4 11 0 0 0 8], WF n) ∧
    collapseAddrList [ip4 10 0 0 0 9, ip4 10 128 0 0 9, ip4 11 0 0 0 8] [] = .ok [ip4 10 0 0 0 7] := by
  decide

/-! ### C04 -/

/-- C04 (partial): the most-specific-match meaning is preserved when every exclude that strictly
contains an include starts at that include's network address. Missing: excludes that strictly
contain an include with another network address (there the claim is false, see below). -/
theorem C04_lpm_preserved_partial (l exc r : List Net) (hl : ∀ n ∈ l, WF n) (he : ∀ n ∈ exc, WF n)
    (hp : ∀ a ∈ l, ∀ e ∈ exc, StrictSub a e → a.addr = e.addr)
    (h : collapseAddrList l exc = .ok r) (v : Ver) (x : Nat) :
    LpmMatch r exc v x ↔ LpmMatch l exc v x :=
  collapse_lpm l exc r hl he hp h v x

/-- C04 refuted (adjacent includes): `10.0.0.0/10, 10.64.0.0/10` except `10.0.0.0/9`. Every address
of the includes matches before, none after. -/
theorem C04_refuted_siblings :
    ∃ (l exc r : List Net) (v : Ver) (x : Nat), (∀ n ∈ l ++ exc, WF n) ∧
      collapseAddrList l exc = .ok r ∧ LpmMatch l exc v x ∧ ¬ LpmMatch r exc v x :=
  ⟨[ip4 10 0 0 0 10, ip4 10 64 0 0 10], [ip4 10 0 0 0 9], [ip4 10 0 0 0 9], .v4, 10 * 2 ^ 24,
    by decide, by decide, by decide, by decide⟩

/-- C04 refuted (nested includes): `10.0.0.0/8, 10.64.0.0/10` except `10.0.0.0/9`. -/
theorem C04_refuted_nested :
    ∃ (l exc r : List Net) (v : Ver) (x : Nat), (∀ n ∈ l ++ exc, WF n) ∧
      collapseAddrList l exc = .ok r ∧ LpmMatch l exc v x ∧ ¬ LpmMatch r exc v x :=
  ⟨[ip4 10 0 0 0 8, ip4 10 64 0 0 10], [ip4 10 0 0 0 9], [ip4 10 0 0 0 8], .v4, 10 * 2 ^ 24 + 64 * 2 ^ 16,
    by decide, by decide, by decide, by decide⟩

/-- The docstring's own example meets the hypotheses of the partial theorem. -/
example : (∀ a ∈ [ip4 10 0 0 0 8, ip4 10 0 0 0 10], ∀ e ∈ [ip4 10 0 0 0 9], a.addr = e.addr) ∧
    collapseAddrList [ip4 10 0 0 0 8, ip4 10 0 0 0 10] [ip4 10 0 0 0 9] =
      .ok [ip4 10 0 0 0 8, ip4 10 0 0 0 10] := by
  decide

/-! ### C05 -/

/-- C05: `CollapseAddrListPreserveTokens` keeps the address set; every result carries the token of
some input, and is covered by inputs with that input's parent token. -/
theorem C05_preserve_tokens (l : List Net) (hl : ∀ n ∈ l, WF n) :
    SameDen (collapsePreserveTokens l) l ∧
    ∀ n ∈ collapsePreserveTokens l, ∃ a ∈ l, n.token = a.token ∧
      ∀ v x, Mem n v x → ∃ b ∈ l, b.parent = a.parent ∧ Mem b v x := by
  obtain ⟨_, h2, h3⟩ := collapsePreserveTokens_spec l hl
  refine ⟨h2, fun n hn => ?_⟩
  obtain ⟨a, ha, e1, _, e2⟩ := h3 n hn
  exact ⟨a, ha, e1, e2⟩

/-- Three groups, two of them swallowed by the third. -/
example :
    (∀ n ∈ [{ ip4 10 0 0 0 9 with parent := "A", token := "A" },
      { ip4 10 128 0 0 9 with parent := "B", token := "B" },
      { ip4 10 0 0 0 8 with parent := "C", token := "C" }], WF n) ∧
    collapsePreserveTokens [{ ip4 10 0 0 0 9 with parent := "A", token := "A" },
      { ip4 10 128 0 0 9 with parent := "B", token := "B" },
      { ip4 10 0 0 0 8 with parent := "C", token := "C" }] =
      [{ ip4 10 128 0 0 9 with parent := "B", token := "B" },
       { ip4 10 0 0 0 8 with parent := "C", token := "C" }] := by
  decide

/-! ### C06 -/

/-- C06: `RemoveAddressFromList` never raises, returns a sorted list and is exact set difference. -/
theorem C06_remove_address (l : List Net) (e : Net) (hl : ∀ n ∈ l, WF n) (he : WF e) :
    ∃ r, removeAddressFromList l e = .ok r ∧
      (∀ v x, Den r v x ↔ Den l v x ∧ ¬ Mem e v x) ∧
      r.Pairwise (fun a b => KeyLt a b ∨ block a = block b) := by
  obtain ⟨r, h1, _, h3, h4⟩ := removeAddressFromList_spec he l hl
  exact ⟨r, h1, h3, h4⟩

example : WF (ip4 10 0 0 0 10) ∧
    removeAddressFromList [ip4 10 0 0 0 8, ip6 0x20 16] (ip4 10 0 0 0 10) =
      .ok [ip4 10 64 0 0 10, ip4 10 128 0 0 9, ip6 0x20 16] := by
  decide +kernel

/-! ### C07 -/

/-- C07: `exclude_address` raises `ValueError` exactly when the hole is not inside the base. -/
theorem C07_exclude_raises (base hole : Net) (hb : WF base) (hh : WF hole) (hv : base.ver = hole.ver) :
    excludeAddress base hole = .error .valueError ↔ ¬ (∀ v x, Mem hole v x → Mem base v x) :=
  excludeAddress_valueError hb hh hv

/-- C07: otherwise the pieces partition `base \ hole`. -/
theorem C07_exclude_partition (base hole : Net) (hb : WF base) (hh : WF hole)
    (hin : ∀ v x, Mem hole v x → Mem base v x) :
    ∃ r, excludeAddress base hole = .ok r ∧ (∀ n ∈ r, WF n) ∧ Disjoint r ∧
      (∀ v x, Mem base v x ↔ Mem hole v x ∨ Den r v x) ∧
      (∀ v x, ¬ (Mem hole v x ∧ Den r v x)) := by
  obtain ⟨r, hr, sp, _⟩ := excludeAddress_spec hb hh hin
  refine ⟨r, hr, sp.wf, sp.sorted.imp (fun h => endsBefore_disj h), ?_, ?_⟩
  · intro v x
    rw [sp.den]
    constructor
    · intro h
      rcases Classical.em (Mem hole v x) with h' | h'
      · exact .inl h'
      · exact .inr ⟨h, h'⟩
    · rintro (h | h)
      · exact hin v x h
      · exact h.1
  · intro v x ⟨h1, h2⟩
    exact ((sp.den v x).1 h2).2 h1

example : excludeAddress (ip6 0x20 4) (ip6 0x21 8) =
    .ok [ip6 0x20 8, ip6 0x22 7, ip6 0x24 6, ip6 0x28 5] := by
  decide +kernel

example : excludeAddress (ip4 10 0 0 0 8) (ip4 10 0 0 0 7) = .error .valueError := by decide

/-! ### C08 -/

/-- C08: `AddressListExclude` (default) never raises, is exact set difference, and its result is
canonical. -/
theorem C08_address_list_exclude (sup exs : List Net) (hs : ∀ n ∈ sup, WF n) (he : ∀ n ∈ exs, WF n) :
    ∃ r, addressListExclude sup exs true = .ok r ∧ Canonical r ∧
      ∀ v x, Den r v x ↔ Den sup v x ∧ ¬ Den exs v x := by
  obtain ⟨r, h1, _, h3, h4⟩ := addressListExclude_spec sup exs hs he
  exact ⟨r, h1, h3, h4⟩

example : (∀ n ∈ [ip4 10 0 0 0 8, ip4 10 0 0 0 10, ip6 0x20 8] ++ [ip4 10 0 0 0 9, ip6 0x20 7], WF n) ∧
    addressListExclude [ip4 10 0 0 0 8, ip4 10 0 0 0 10, ip6 0x20 8] [ip4 10 0 0 0 9, ip6 0x20 7] true =
      .ok [ip4 10 128 0 0 9] := by
  decide +kernel

/-! ### C09 -/

/-- C09 (partial): with `collapse_addrs=False` the result is exact set difference for one-family
lists whose superset members are disjoint. Missing: overlapping superset members and mixed
families (false there, see below). -/
theorem C09_exclude_no_collapse_partial (sup exs : List Net)
    (hs : ∀ n ∈ sup, WF n) (he : ∀ n ∈ exs, WF n)
    (h1 : ∀ a ∈ sup, ∀ b ∈ sup, a.ver = b.ver) (h2 : ∀ a ∈ exs, ∀ b ∈ exs, a.ver = b.ver)
    (hd : Disjoint sup) :
    ∃ r, addressListExclude sup exs false = .ok r ∧
      ∀ v x, Den r v x ↔ Den sup v x ∧ ¬ Den exs v x := by
  obtain ⟨r, h1, _, h3⟩ := addressListExclude_nocollapse_spec sup exs hs he h1 h2 hd
  exact ⟨r, h1, h3⟩

/-- C09 refuted: overlapping superset members let an excluded network through. -/
theorem C09_refuted_overlap :
    ∃ (sup exs r : List Net) (v : Ver) (x : Nat), (∀ n ∈ sup ++ exs, WF n) ∧
      addressListExclude sup exs false = .ok r ∧ Den r v x ∧ Den exs v x :=
  ⟨[ip4 10 0 0 0 8, ip4 10 0 0 0 10], [ip4 10 0 0 0 9], [ip4 10 0 0 0 10, ip4 10 128 0 0 9],
    .v4, 10 * 2 ^ 24, by decide, by decide +kernel, by decide, by decide⟩

/-- C09 refuted: mixed families raise `TypeError`. -/
theorem C09_refuted_mixed :
    ∃ sup exs : List Net, (∀ n ∈ sup ++ exs, WF n) ∧
      addressListExclude sup exs false = .error .typeError :=
  ⟨[ip4 10 0 0 0 8, ip6 0x20 16], [], by decide, by decide⟩

example : addressListExclude [ip4 10 128 0 0 9, ip4 10 0 0 0 9] [ip4 10 0 0 0 10] false =
      .ok [ip4 10 64 0 0 10, ip4 10 128 0 0 9] := by
  decide +kernel

/-! ### C10 -/

/-- C10: a positive answer of `IsSuperNet` is sound. -/
theorem C10_supernet_sound (sup sub : List Net) (w1 : ∀ n ∈ sup, WF n) (w2 : ∀ n ∈ sub, WF n)
    (h : isSuperNet sup sub = true) : ∀ v x, Den sub v x → Den sup v x :=
  isSuperNet_sound w1 w2 h

/-- C10: on a collapsed list of supernets the answer is exact. -/
theorem C10_supernet_exact (l sup sub : List Net) (wl : ∀ n ∈ l, WF n) (w2 : ∀ n ∈ sub, WF n)
    (hc : collapseAddrList l [] = .ok sup) :
    isSuperNet sup sub = true ↔ ∀ v x, Den sub v x → Den l v x := by
  have hd := collapseAddrList_spec l [] sup wl hc
  constructor
  · intro h v x hx
    exact (hd.2 v x).1 (isSuperNet_sound hd.1 w2 h v x hx)
  · intro h
    exact isSuperNet_complete hd.1 w2 (C02_canonical l sup wl hc).sibfree
      (fun v x hx => (hd.2 v x).2 (h v x hx))

/-- Without collapsing, completeness fails: the hypothesis of `C10_supernet_exact` is needed. -/
theorem C10_incomplete_uncollapsed :
    isSuperNet [ip4 10 0 0 0 9, ip4 10 128 0 0 9] [ip4 10 0 0 0 8] = false ∧
    collapseAddrList [ip4 10 0 0 0 9, ip4 10 128 0 0 9] [] = .ok [ip4 10 0 0 0 8] := by
  decide

example : isSuperNet [ip4 10 0 0 0 8, ip6 0x20 16] [ip4 10 1 0 0 16, ip6 0x20 17] = true := by decide

/-! ### C51 -/

/-- C51: no comment is lost: for every input network some returned network contains it and its
comment contains the input's comment. -/
theorem C51_comments_kept (l comps r : List Net) (hl : ∀ n ∈ l, WF n)
    (h : collapseAddrList l comps = .ok r) :
    ∀ a ∈ l, ∃ n ∈ r, (∀ v x, Mem a v x → Mem n v x) ∧ a.text <:+: n.text :=
  (collapse_ind (comment_inv l (keptComps l comps)) ⟨hl, fun a ha =>
    ⟨a, ha, fun _ _ h => h, List.infix_refl _⟩⟩ h).2

example : collapseAddrList [{ ip4 10 0 0 0 9 with text := "lo".toList },
      { ip4 10 128 0 0 9 with text := "hi".toList }] [] =
    .ok [{ ip4 10 0 0 0 8 with text := "lo, hi".toList }] := by
  decide

end Verif.Props
