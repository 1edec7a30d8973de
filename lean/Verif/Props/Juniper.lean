import Verif.Lemmas.Juniper
import Verif.Lemmas.JuniperConfig

/-!
Property theorems C43-C45: capirca/lib/juniper.py, address lists and the configuration builder.
-/

namespace Verif.Props
open Verif Verif.Spec Verif.Spec.Junos Verif.Juniper

/-- C43: under the rule of Junos (the most specific prefix decides, `except` wins ties), the minimised lists match
exactly the addresses the given lists match. -/
theorem C43_minimize (inc exc : List Net) (hi : ∀ n ∈ inc, WF n) (he : ∀ n ∈ exc, WF n) (v : Ver) (x : Nat) :
    LpmMatch (minimizePrefixes inc exc).1 (minimizePrefixes inc exc).2 v x ↔ LpmMatch inc exc v x :=
  minimize_lpm inc exc hi he v x

/-- Nested includes and excludes, one exclude equal to an include and one outside all includes. -/
example : let inc := [ip4 10 0 0 0 8, ip4 10 1 2 0 24, ip4 10 5 0 0 16]
    let exc := [ip4 10 1 0 0 16, ip4 10 5 0 0 16, ip4 11 0 0 0 8]
    (∀ n ∈ inc ++ exc, WF n) ∧
    minimizePrefixes inc exc = ([ip4 10 0 0 0 8, ip4 10 1 2 0 24], [ip4 10 1 0 0 16, ip4 10 5 0 0 16]) := by
  decide +kernel

/-- C43: the minimised lists are parts of the given ones, in order, and there is nothing left to remove: no include
equals an exclude, and every exclude lies in some include. -/
theorem C43_minimal (inc exc : List Net) (hi : ∀ n ∈ inc, WF n) (he : ∀ n ∈ exc, WF n) :
    (minimizePrefixes inc exc).1.Sublist inc ∧ (minimizePrefixes inc exc).2.Sublist exc ∧
    (∀ n ∈ (minimizePrefixes inc exc).1, ∀ e ∈ (minimizePrefixes inc exc).2, block n ≠ block e) ∧
    ∀ e ∈ (minimizePrefixes inc exc).2, ∃ n ∈ (minimizePrefixes inc exc).1, ∀ v x, Mem e v x → Mem n v x := by
  refine ⟨List.filter_sublist, List.filter_sublist, fun n hn e hee => ?_, fun e hee => ?_⟩
  · exact ((mem_minimize_fst hi he).1 hn).2 e ((mem_minimize_snd hi he).1 hee).1
  · obtain ⟨h1, n, hn, h2, h3⟩ := (mem_minimize_snd hi he).1 hee
    exact ⟨n, (mem_minimize_fst hi he).2 ⟨hn, h2⟩, h3⟩

/-- C44 (partial): the address condition of a rendered term matches exactly the addresses of the include list that
are in no exclude, and a term is left out only if no address of the family matches. Missing: includes that lie
inside an exclude, and excludes without includes, where the claim is false (refuted below); excludes with
discontiguous masks. -/
theorem C44_addresses_partial {af : Ver} {dsmo : Bool} {hd : String} {inc exc : List Net} {r : Option (List Cond)}
    (hi : ∀ n ∈ inc, WF n) (he : ∀ n ∈ exc, WF n) (hm : dsmo = true → af = .v4 ∧ ∀ e ∈ exc, e.ver ≠ af)
    (hn : ∀ n ∈ inc, ∀ e ∈ exc, ¬ StrictSub n e) (h0 : inc = [] → exc = [])
    (h : addrCond af dsmo hd inc exc = .ok r) {x : Nat} (hx : x < 2 ^ af.bits) :
    AddrMatch inc exc af x ↔ ∃ cs, r = some cs ∧ (cs = [] ∨ ∃ ls, cs = [.block hd ls] ∧ AddrLines ls af x) := by
  obtain ⟨h1, h2⟩ := addrCond_spec hi he hm h
  cases r with
  | none =>
    obtain ⟨h3, h4⟩ := h1 rfl
    rw [← lpm_addrMatch hi he h3 hn]
    exact ⟨fun h => absurd h (h4 x hx), by rintro ⟨_, h, _⟩; cases h⟩
  | some cs =>
    rcases h2 cs rfl with ⟨rfl, rfl⟩ | ⟨h3, ls, rfl, h4⟩
    · rw [h0 rfl]
      refine ⟨fun _ => ⟨[], rfl, .inl rfl⟩, fun _ => ⟨.inl rfl, ?_⟩⟩
      rintro ⟨n, hn, _⟩; cases hn
    · rw [← lpm_addrMatch hi he h3 hn, ← h4 x hx]
      constructor
      · intro h; exact ⟨_, rfl, .inr ⟨ls, rfl, h⟩⟩
      · rintro ⟨cs, e, h | ⟨ls', e', h⟩⟩
        · cases e; cases h
        · cases e; cases e'; exact h

/-- C44: in general the condition has the meaning Junos gives to the two lists (the most specific prefix decides). -/
theorem C44_most_specific {af : Ver} {hd : String} {inc exc : List Net} {r : Option (List Cond)}
    (hi : ∀ n ∈ inc, WF n) (he : ∀ n ∈ exc, WF n) (h0 : inc ≠ [])
    (h : addrCond af false hd inc exc = .ok r) {x : Nat} (hx : x < 2 ^ af.bits) :
    LpmMatch inc exc af x ↔ ∃ ls, r = some [.block hd ls] ∧ AddrLines ls af x := by
  obtain ⟨h1, h2⟩ := addrCond_spec hi he (by simp) h
  cases r with
  | none =>
    obtain ⟨h3, h4⟩ := h1 rfl
    exact ⟨fun h => absurd h (h4 x hx), by rintro ⟨_, h, _⟩; cases h⟩
  | some cs =>
    rcases h2 cs rfl with ⟨rfl, rfl⟩ | ⟨h3, ls, rfl, h4⟩
    · exact absurd rfl h0
    · rw [← h4 x hx]
      constructor
      · intro h; exact ⟨ls, rfl, h⟩
      · rintro ⟨_, e, h⟩; cases e; exact h

/-- Includes and excludes of both families. -/
example : let inc := [ip4 10 0 0 0 8, ip4 192 168 0 0 16, ⟨.v6, 1, 128, [], "", ""⟩]
    let exc := [ip4 10 1 0 0 16, ip4 192 168 0 0 16, ip4 11 0 0 0 8]
    (∀ n ∈ inc ++ exc, WF n) ∧ addrCond .v4 false "source-address" inc exc =
      .ok (some [.block "source-address" [[.pfx .v4 (10 * 2 ^ 24) 8],
        [.pfx .v4 (10 * 2 ^ 24 + 2 ^ 16) 16, .w "except"]]]) := by
  decide +kernel

/-- C44 refuted: excludes without includes are dropped, the condition is empty. -/
theorem C44_refuted_exclude_only : ∃ (exc : List Net) (x : Nat), (∀ n ∈ exc, WF n) ∧ x < 2 ^ 32 ∧
    addrCond .v4 false "source-address" [] exc = .ok (some []) ∧ ¬ AddrMatch [] exc .v4 x :=
  ⟨[ip4 10 0 0 0 8], 10 * 2 ^ 24, by decide, by decide, by decide +kernel,
    fun h => h.2 ⟨_, List.mem_singleton.2 rfl, by decide⟩⟩

/-- C44 refuted: an include inside an exclude still matches. -/
theorem C44_refuted_nested : ∃ (inc exc : List Net) (x : Nat) (ls : List (List Tok)), (∀ n ∈ inc ++ exc, WF n) ∧
    x < 2 ^ 32 ∧ addrCond .v4 false "source-address" inc exc = .ok (some [.block "source-address" ls]) ∧
    AddrLines ls .v4 x ∧ ¬ AddrMatch inc exc .v4 x := by
  refine ⟨[ip4 10 1 0 0 16], [ip4 10 0 0 0 8], 10 * 2 ^ 24 + 2 ^ 16, [[.pfx .v4 (10 * 2 ^ 24 + 2 ^ 16) 16]],
    by decide, by decide, by decide +kernel, ?_, ?_⟩
  · refine ⟨_, List.mem_singleton.2 rfl, ⟨rfl, rfl⟩, fun e he => ?_⟩
    cases List.mem_singleton.1 he
  · exact fun h => h.2 ⟨_, List.mem_singleton.2 rfl, by decide⟩

/-! ### C45 -/

/-- C45, braces. Missing from the full claim: the lines must not have comments nested four deep, and verbatim lines
do not count (see the refutations). -/
theorem C45_balanced_partial {initial : Nat} {ls : List (Bool × Str)} {out : List Str}
    (h : build initial ls = .ok out)
    (hc : ∀ a b, ls = a ++ b → 0 ≤ comments (plain a) ∧ comments (plain a) < 4)
    (hz : comments (plain ls) = 0) :
    depth (plain ls) = 0 ∧ ∀ a b, ls = a ++ b → 0 ≤ depth (plain a) := by
  obtain ⟨c, h1, h2⟩ := bind_ok h
  obtain ⟨k1, k2, k3, _⟩ := appendAll_spec ls _ c rfl (by simp) h1
  unfold finish at h2
  split at h2
  · cases h2
  next e =>
  simp only at k1 k2 k3
  refine ⟨by omega, fun a b e => ?_⟩
  have := k3 a b e
  have := (hc a b e).2
  omega

/-- C45, indentation: every line that is not verbatim is indented by the initial indent, four columns for each block
around it and one for each comment around it; verbatim lines are unchanged. -/
theorem C45_indentation {initial : Nat} {ls : List (Bool × Str)} {out : List Str}
    (h : build initial ls = .ok out) : out.length = ls.length ∧
    (∀ a l b, ls = a ++ (true, l) :: b → out[a.length]? = some l) ∧
    (∀ a l b, ls = a ++ (false, l) :: b → ¬ Closes l → out[a.length]? =
      some (List.replicate (initial + 4 * depth (plain a) + comments (plain a)).toNat ' ' ++ PyStr.strip l)) ∧
    (∀ a l b, ls = a ++ (false, l) :: b → Closes l → out[a.length]? =
      some (List.replicate (initial + 4 * (depth (plain a) - 1) + comments (plain a)).toNat ' ' ++
        PyStr.strip l)) := by
  obtain ⟨c, h1, h2⟩ := bind_ok h
  obtain ⟨_, _, _, o, h3, h4, h5⟩ := appendAll_spec ls _ c rfl (by simp) h1
  unfold finish at h2
  split at h2
  · cases h2
  simp only [Except.ok.injEq] at h2
  simp only [List.nil_append] at h3
  rw [h3] at h2
  subst h2
  refine ⟨h4, fun a l b e => h5 a _ b e, fun a l b e hn => ?_, fun a l b e hn => ?_⟩
  · rw [h5 a _ b e]
    simp [shown, cl, hn]
  · rw [h5 a _ b e]
    simp [shown, cl, hn]

/-- C45, the other direction: properly nested lines are accepted. -/
theorem C45_accepts {initial : Nat} {ls : List (Bool × Str)}
    (hc : ∀ a b, plain ls = a ++ b → 0 ≤ depth a ∧ 0 ≤ comments a)
    (hn : ∀ a l b, plain ls = a ++ l :: b → (Closes l → 0 < depth a) ∧ (EndsComment l → 0 < comments a))
    (hz : depth (plain ls) = 0 ∧ comments (plain ls) = 0) : ∃ out, build initial ls = .ok out := by
  obtain ⟨c, h1⟩ := appendAll_total ls { indent := initial, initial := initial } rfl (by simp) (by
    intro a l b e
    obtain ⟨h1, h2⟩ := hc a (l :: b) e
    obtain ⟨h3, h4⟩ := hn a l b e
    simp only
    by_cases h5 : Closes l <;> by_cases h6 : EndsComment l <;> simp only [cl, ec, h5, h6, if_true, if_false] <;>
      first
      | (have := h3 h5; have := h4 h6; omega)
      | (have := h3 h5; omega)
      | (have := h4 h6; omega)
      | omega)
  obtain ⟨k1, k2, _⟩ := appendAll_spec ls _ c rfl (by simp) h1
  refine ⟨c.lines, ?_⟩
  unfold build
  rw [h1]
  simp only at k1 k2
  simp only [bind, Except.bind, finish]
  rw [if_neg]
  simp only [ne_eq, Decidable.not_not]
  omega

/-- A filter with a comment and a verbatim line. -/
example : build 8 [(false, "filter f {".toList), (false, "/*".toList), (false, "** x".toList),
      (false, "*/".toList), (true, "   v {".toList), (false, "then accept;".toList), (false, "}".toList)] =
    .ok ["        filter f {".toList, "            /*".toList, "             ** x".toList,
      "             */".toList, "   v {".toList, "            then accept;".toList, "        }".toList] := by
  decide +kernel

/-- C45 refuted: four open comments pay for a brace that closes nothing. -/
theorem C45_refuted_comments : ∃ (ls : List (Bool × Str)) (out : List Str), build 0 ls = .ok out ∧
    (∀ l ∈ ls, l.1 = false) ∧ depth (plain ls) ≠ 0 := by
  refine ⟨[(false, "/*".toList), (false, "/*".toList), (false, "/*".toList), (false, "/*".toList),
    (false, "}".toList)], ["/*".toList, " /*".toList, "  /*".toList, "   /*".toList, "}".toList], by decide +kernel,
    by decide, ?_⟩
  have h : ∀ l, depth [l] = op l - cl l := depth_one
  simp only [plain, List.filter, List.map, Bool.not_false]
  rw [depth_cons, depth_cons (ls := [_, _, _]), depth_cons (ls := [_, _]), depth_cons (ls := [_]), h, h]
  have e1 : op "/*".toList = 0 := by rcases op_cases "/*".toList with ⟨h, _⟩ | ⟨_, h⟩; exact h; revert h; decide
  have e2 : cl "/*".toList = 0 := by rcases cl_cases "/*".toList with ⟨h, _⟩ | ⟨_, h⟩; exact h; revert h; decide
  have e3 : op "}".toList = 0 := by rcases op_cases "}".toList with ⟨h, _⟩ | ⟨_, h⟩; exact h; revert h; decide
  have e4 : cl "}".toList = 1 := by rcases cl_cases "}".toList with ⟨_, h⟩ | ⟨h, _⟩; revert h; decide; exact h
  rw [e1, e2, e3, e4]
  decide

/-- C45 refuted: verbatim lines are not checked. -/
theorem C45_refuted_verbatim : ∃ (l : Str), Closes l ∧ build 0 [(true, l)] = .ok [l] :=
  ⟨"}".toList, ⟨[], rfl⟩, rfl⟩

end Verif.Props
