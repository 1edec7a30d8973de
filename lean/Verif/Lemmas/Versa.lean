import Verif.Spec.Versa
import Verif.Lemmas.Translate
import Verif.Lemmas.Sort
import Verif.Props.SrxSplit

/-!
Lemmas about the model of versa.py.
-/

namespace Verif.Lemmas.VersaL
open Verif Policy Aclgenerator Nacaddr PyStr Verif.Versa Verif.Lemmas
open Verif.Srx (STerm admitted parts byteLength inFamily)
open Verif.Spec.Versa (Says Head About Live Sided Carries Logs Among PartOf Small Cut Block Rendered named NamesAre)
open Verif.Spec (Matches)

/-! ### headers -/

theorem hasSub_infix {w : Str} : ∀ {s : Str}, hasSub w s = true → ∃ a b, s = a ++ w ++ b
  | [], h => by
    unfold hasSub at h
    exact ⟨[], [], by simpa using h.symm⟩
  | c :: cs, h => by
    unfold hasSub at h
    rw [Bool.or_eq_true, List.isPrefixOf_iff_prefix] at h
    rcases h with ⟨t, ht⟩ | h
    · exact ⟨[], t, by simpa using ht.symm⟩
    · obtain ⟨a, b, e⟩ := hasSub_infix h
      exact ⟨c :: a, b, by simp [e]⟩

theorem optLoop_ok : ∀ {rest : List String} {n : Names} {af : String} {r : Names × String}, optLoop n af rest = .ok r →
    ∃ ns o, Says rest ns o ∧ (af ≠ "" → o = none ∧ r.2 = af) ∧ (af = "" → r.2 = o.getD "mixed") ∧
      (∀ a, o = some a → a ∈ ["inet", "inet6", "mixed"]) ∧ r.1 = ns.foldl (fun n kv => n.set kv.1 kv.2) n := by
  intro rest
  induction hn : rest.length using Nat.strongRecOn generalizing rest with
  | _ k ih =>
    intro n af r h
    cases rest with
    | nil =>
      unfold optLoop at h
      cases h
      refine ⟨[], none, .nil, fun h => ⟨rfl, if_neg h⟩, fun h => if_pos h, ?_, rfl⟩
      intro a e; cases e
    | cons o rest =>
      unfold optLoop at h
      split at h
      next hc =>
        split at h
        · cases h
        next v rest =>
          obtain ⟨ns, f, h1, h2, h3, h4, h5⟩ := ih rest.length (by simp at hn; omega) rfl h
          exact ⟨(o, v) :: ns, f, .pair (List.contains_iff_mem.1 hc) h1, h2, h3, h4, h5⟩
      next hc =>
        split at h
        next hf =>
          have hf := List.contains_iff_mem.1 hf
          split at h
          next he =>
            obtain ⟨ns, f, h1, h2, h3, h4, h5⟩ := ih rest.length (by simp at hn; omega) rfl h
            have hne : o ≠ "" := by rintro rfl; revert hf; decide
            obtain ⟨e1, e2⟩ := h2 hne
            subst e1
            refine ⟨ns, some o, .family hf h1, fun h => absurd he h, fun _ => e2, ?_, h5⟩
            intro a e; cases e; exact hf
          · cases h
        next hf =>
          split at h
          next hq =>
            obtain ⟨ns, f, h1, h2, h3, h4, h5⟩ := ih rest.length (by simp at hn; omega) rfl h
            refine ⟨ns, f, .quiet ?_ (hasSub_infix hq) h1, h2, h3, h4, h5⟩
            intro hm
            simp only [List.contains_iff_mem, List.mem_cons, List.not_mem_nil, or_false] at hc hf hm
            rcases hm with rfl | rfl | rfl | rfl | rfl | rfl <;> simp at hc hf
          · cases h

/-- What a header that is accepted says. -/
theorem header_ok {n : Names} {options : List String} {r : String × String × String × Names} (h : header n options = .ok r) :
    ∃ ns o, Head options r.1 r.2.1 ns o ∧ (∀ v, inFamily r.2.2.1 v = true ↔ About o v) ∧
      r.2.2.2 = ns.foldl (fun n kv => n.set kv.1 kv.2) n := by
  unfold header at h
  split at h
  next f a t b rest =>
    split at h
    · cases h
    next hz =>
      split at h
      · cases h
      · split at h
        · cases h
        · obtain ⟨x, hx, h⟩ := bind_ok h
          cases h
          obtain ⟨ns, o, h1, _, h3, h4, h5⟩ := optLoop_ok hx
          have hz1 : f = "from-zone" := Classical.byContradiction fun e => hz (.inl e)
          have hz2 : t = "to-zone" := Classical.byContradiction fun e => hz (.inr e)
          subst hz1; subst hz2
          refine ⟨ns, o, ⟨rest, rfl, h1⟩, ?_, h5⟩
          intro v
          have h3 := h3 rfl
          show inFamily x.2 v = true ↔ _
          rw [h3]
          unfold About
          cases o with
          | none => cases v <;> simp [inFamily]
          | some a =>
            have := h4 a rfl
            simp only [List.mem_cons, List.not_mem_nil, or_false] at this
            rcases this with rfl | rfl | rfl <;> cases v <;> simp [inFamily]
  · cases h

theorem says_unique {rest : List String} {ns ns' : List (String × String)} {o o' : Option String} (h : Says rest ns o)
    (h' : Says rest ns' o') : ns = ns' ∧ o = o' := by
  induction h generalizing ns' o' with
  | nil => cases h'; exact ⟨rfl, rfl⟩
  | pair hk _ ih =>
    cases h' with
    | pair _ h' => obtain ⟨e1, e2⟩ := ih h'; exact ⟨by rw [e1], e2⟩
    | family ha h' =>
      simp only [List.mem_cons, List.not_mem_nil, or_false] at hk ha
      rcases hk with rfl | rfl | rfl <;> simp at ha
    | quiet hq _ h' =>
      simp only [List.mem_cons, List.not_mem_nil, or_false] at hk hq
      rcases hk with rfl | rfl | rfl <;> simp at hq
  | family ha _ ih =>
    cases h' with
    | pair hk h' =>
      simp only [List.mem_cons, List.not_mem_nil, or_false] at hk ha
      rcases hk with rfl | rfl | rfl <;> simp at ha
    | family _ h' => obtain ⟨e1, e2⟩ := ih h'; exact ⟨e1, rfl⟩
    | quiet hq _ h' =>
      simp only [List.mem_cons, List.not_mem_nil, or_false] at ha hq
      rcases ha with rfl | rfl | rfl <;> simp at hq
  | quiet hq _ _ ih =>
    cases h' with
    | pair hk h' =>
      simp only [List.mem_cons, List.not_mem_nil, or_false] at hk hq
      rcases hk with rfl | rfl | rfl <;> simp at hq
    | family ha h' =>
      simp only [List.mem_cons, List.not_mem_nil, or_false] at ha hq
      rcases ha with rfl | rfl | rfl <;> simp at hq
    | quiet _ _ h' => exact ih h'

theorem head_unique {options : List String} {a b a' b' : String} {ns ns' : List (String × String)} {o o' : Option String}
    (h : Head options a b ns o) (h' : Head options a' b' ns' o') : a = a' ∧ b = b' ∧ ns = ns' ∧ o = o' := by
  obtain ⟨r, e, h⟩ := h
  obtain ⟨r', e', h'⟩ := h'
  rw [e] at e'
  injection e' with _ e'
  injection e' with ea e'
  injection e' with _ e'
  injection e' with eb e'
  subst e'
  obtain ⟨e1, e2⟩ := says_unique h h'
  exact ⟨ea, eb, e1, e2⟩

/-! ### address books -/

/-- Numbered addresses. -/
def numbered (c : Nat) (l : List Net) : List (Nat × Net) := (List.range' c l.length).zip l

/-- The group for a list, if it has any address. -/
def fresh (z : Str) (c : Nat) (l : List Net) : Book := if l = [] then [] else [(z, numbered c l)]

theorem put_last {z : Str} {e : Nat × Net} {es : List (Nat × Net)} : ∀ {b : Book}, z ∉ b.map Prod.fst →
    put z e (b ++ [(z, es)]) = b ++ [(z, es ++ [e])]
  | [], _ => by simp [put]
  | x :: xs, h => by
    simp only [List.map_cons, List.mem_cons, not_or] at h
    rw [List.cons_append, put, if_neg (fun e => h.1 e.symm), put_last h.2]
    rfl

theorem put_new {z : Str} {e : Nat × Net} : ∀ {b : Book}, z ∉ b.map Prod.fst → put z e b = b ++ [(z, [e])]
  | [], _ => rfl
  | x :: xs, h => by
    simp only [List.map_cons, List.mem_cons, not_or] at h
    rw [put, if_neg (fun e => h.1 e.symm), put_new h.2]
    rfl

theorem not_taken {b : Book} {z : Str} {c : Nat} (h : ∀ x ∈ b, x.1 = z → ∀ e ∈ x.2, e.1 < c) : taken b z c = false := by
  cases ht : taken b z c with
  | false => rfl
  | true =>
    unfold taken at ht
    rw [List.any_eq_true] at ht
    obtain ⟨x, hx, hh⟩ := ht
    rw [Bool.and_eq_true, beq_iff_eq, List.any_eq_true] at hh
    obtain ⟨e, he, hc⟩ := hh.2
    have := h x hx hh.1 e he
    rw [beq_iff_eq] at hc
    omega

theorem enterAll_more {z : Str} {b : Book} (hz : z ∉ b.map Prod.fst) : ∀ (l : List Net) {es : List (Nat × Net)} {c : Nat},
    (∀ e ∈ es, e.1 < c) → enterAll z (b ++ [(z, es)], c) l = (b ++ [(z, es ++ numbered c l)], c + l.length)
  | [], es, c, _ => by simp [enterAll, numbered]
  | n :: l, es, c, h => by
    have hne : ∀ x ∈ b, x.1 ≠ z := fun x hx e => hz (e ▸ List.mem_map_of_mem hx)
    unfold enterAll
    rw [List.foldl_cons]
    have : enter z (b ++ [(z, es)], c) n = (b ++ [(z, es ++ [(c, n)])], c + 1) := by
      unfold enter
      rw [if_neg]
      · rw [put_last hz]
      · rw [not_taken]
        · simp
        · intro x hx e
          rcases List.mem_append.1 hx with hx | hx
          · exact absurd e (hne x hx)
          · rw [List.mem_singleton.1 hx]; exact h
    rw [this]
    have := enterAll_more hz l (es := es ++ [(c, n)]) (c := c + 1) (by
      intro e he
      rcases List.mem_append.1 he with he | he
      · have := h e he; omega
      · rw [List.mem_singleton.1 he]; exact Nat.lt_succ_self _)
    unfold enterAll at this
    rw [this]
    simp only [numbered, List.length_cons, List.range'_succ, List.zip_cons_cons, List.append_assoc, List.singleton_append]
    rw [Nat.add_assoc, Nat.add_comm 1]

theorem enterAll_new {z : Str} {b : Book} {c : Nat} (hz : z ∉ b.map Prod.fst) (l : List Net) :
    enterAll z (b, c) l = (b ++ fresh z c l, c + l.length) := by
  cases l with
  | nil => simp [enterAll, fresh]
  | cons n l =>
    have hne : ∀ x ∈ b, x.1 ≠ z := fun x hx e => hz (e ▸ List.mem_map_of_mem hx)
    unfold enterAll
    rw [List.foldl_cons]
    have : enter z (b, c) n = (b ++ [(z, [(c, n)])], c + 1) := by
      unfold enter
      rw [if_neg]
      · rw [put_new hz]
      · rw [not_taken]
        · simp
        · intro x hx e
          exact absurd e (hne x hx)
    rw [this]
    have := enterAll_more hz l (es := [(c, n)]) (c := c + 1) (by simp)
    unfold enterAll at this
    rw [this]
    unfold fresh
    rw [if_neg (by simp)]
    simp only [numbered, List.length_cons, List.range'_succ, List.zip_cons_cons, List.singleton_append]
    rw [Nat.add_assoc, Nat.add_comm 1]

theorem numbered_fst (c : Nat) (l : List Net) : (numbered c l).map Prod.fst = List.range' c l.length := by
  unfold numbered
  rw [List.map_fst_zip]
  simp

theorem numbered_snd (c : Nat) (l : List Net) : (numbered c l).map Prod.snd = l := by
  unfold numbered
  rw [List.map_snd_zip]
  simp

/-- The numbers are given one after the other, and the groups are those of the terms so far. -/
structure Tidy (used : List Str) (b : Book) (c : Nat) : Prop where
  nums : (b.flatMap Prod.snd).map Prod.fst = List.range c
  keys : (b.map Prod.fst).Nodup
  named : ∀ z ∈ b.map Prod.fst, ∃ n ∈ used, z = "src-".toList ++ n ∨ z = "dest-".toList ++ n

theorem tidy_fresh {used : List Str} {b : Book} {c : Nat} (h : Tidy used b c) {z name : Str} (hn : name ∈ used)
    (hz : z = "src-".toList ++ name ∨ z = "dest-".toList ++ name) (hb : z ∉ b.map Prod.fst) (l : List Net) :
    Tidy used (b ++ fresh z c l) (c + l.length) := by
  unfold fresh
  by_cases hl : l = []
  · subst hl
    rw [if_pos rfl, List.append_nil]
    exact h
  · rw [if_neg hl]
    refine ⟨?_, ?_, ?_⟩
    · rw [List.flatMap_append, List.map_append, h.nums]
      show _ ++ List.map Prod.fst (numbered c l ++ []) = _
      rw [List.append_nil, numbered_fst, List.range_eq_range', List.range_eq_range']
      have := List.range'_append (s := 0) (m := c) (n := l.length) (step := 1)
      simpa using this
    · rw [List.map_append]
      refine List.nodup_append.2 ⟨h.keys, by simp, ?_⟩
      intro x hx y hy e
      rw [List.mem_singleton.1 hy] at e
      have e : x = z := e
      exact hb (e ▸ hx)
    · intro x hx
      rw [List.map_append] at hx
      rcases List.mem_append.1 hx with hx | hx
      · exact h.named x hx
      · rw [List.mem_singleton.1 hx]
        exact ⟨name, hn, hz⟩

/-! ### terms -/

theorem hasSub_self (w : Str) : hasSub w w = true := by
  cases w with
  | nil => rfl
  | cons c cs =>
    unfold hasSub
    rw [Bool.or_eq_true, List.isPrefixOf_iff_prefix]
    exact .inl (List.prefix_refl _)

theorem icmpOut_ok {ps apps : List String} {r : List String × List String} (h : icmpOut ps apps = .ok r) :
    r = (ps.erase "icmp", apps ++ if "icmp" ∈ ps then ["ICMP"] else []) := by
  unfold icmpOut at h
  split at h
  · split at h
    next hc =>
      cases h
      rw [if_pos (List.contains_iff_mem.1 hc)]
    · cases h
  next hn =>
    cases h
    have : "icmp" ∉ ps := by
      intro hm
      apply hn
      rw [List.any_eq_true]
      exact ⟨"icmp", hm, hasSub_self _⟩
    rw [if_neg this, List.erase_of_not_mem this, List.append_nil]

theorem dscpOf_ok : ∀ {l r : List String}, dscpOf l = .ok r →
    ∀ d, d ∈ r ↔ d ∈ l ∧ ∃ k : Int, PyStr.pyInt d.toList = some k ∧ 0 ≤ k ∧ k ≤ 63
  | [], r, h, d => by cases h; simp
  | x :: xs, r, h, d => by
    unfold dscpOf at h
    split at h
    · cases h
    next n hn =>
      obtain ⟨r', h1, h⟩ := bind_ok h
      cases h
      have ih := dscpOf_ok h1 d
      split
      next hb =>
        rw [List.mem_cons, ih, List.mem_cons]
        constructor
        · rintro (rfl | ⟨h1, h2⟩)
          · exact ⟨.inl rfl, n, hn, hb⟩
          · exact ⟨.inr h1, h2⟩
        · rintro ⟨rfl | h1, h2⟩
          · exact .inl rfl
          · exact .inr ⟨h1, h2⟩
      next hb =>
        rw [ih, List.mem_cons]
        constructor
        · rintro ⟨h1, h2⟩; exact ⟨.inr h1, h2⟩
        · rintro ⟨rfl | h1, h2⟩
          · obtain ⟨k, hk, hh⟩ := h2
            rw [hn] at hk; cases hk
            exact absurd hh hb
          · exact ⟨h1, h2⟩

theorem eventOf_logs (l : List String) : Logs l (eventOf l) := by
  unfold eventOf
  cases l with
  | nil => exact .none
  | cons s l =>
    dsimp only
    split
    next h => exact .start h
    next h =>
      split
      next h2 => subst h2; exact .both
      next h2 => exact .never h h2

theorem fixed {name out : Str} (h : fixTermLength abbreviations 62 name false false = .ok out) : out = name ∧ name.length ≤ 62 := by
  unfold fixTermLength truncateName at h
  simp only [Bool.false_eq_true, if_false] at h
  split at h
  next hl => cases h; exact ⟨rfl, hl⟩
  · cases h

/-- How a term changes the state. -/
inductive Stepped (af a b : String) (st : State) (c : Nat) (g : VTerm) (name : Str) : State × Nat → Prop
  | noSrc : g.base.term.sourceAddress ≠ [] → admitted af g.base.term.sourceAddress = [] → Stepped af a b st c g name (st, c)
  | noDst : ¬ (g.base.term.sourceAddress ≠ [] ∧ admitted af g.base.term.sourceAddress = []) →
      g.base.term.destinationAddress ≠ [] → admitted af g.base.term.destinationAddress = [] →
      Stepped af a b st c g name ({ st with book :=
        (enterAll ("src-".toList ++ name) (st.book, c) (admitted af g.base.term.sourceAddress)).1 },
        (enterAll ("src-".toList ++ name) (st.book, c) (admitted af g.base.term.sourceAddress)).2)
  | rule {ap : List App × Bool} {dscp : List String} :
      ¬ (g.base.term.sourceAddress ≠ [] ∧ admitted af g.base.term.sourceAddress = []) →
      ¬ (g.base.term.destinationAddress ≠ [] ∧ admitted af g.base.term.destinationAddress = []) →
      place ⟨name, g.base.term.sourcePort, g.base.term.destinationPort, g.base.term.protocol.erase "icmp"⟩ st.apps = .ok ap →
      dscpOf g.base.term.dscpMatch = .ok dscp →
      Stepped af a b st c g name ({ st with
          book := (enterAll ("dest-".toList ++ name) (enterAll ("src-".toList ++ name) (st.book, c)
            (admitted af g.base.term.sourceAddress)) (admitted af g.base.term.destinationAddress)).1
          apps := ap.1
          rules := st.rules ++ [{
            name := name
            src := sideOf (zonesOf g.base.term.sourceZone a) ("src-".toList ++ name) (admitted af g.base.term.sourceAddress)
              g.base.term.sourceAddressExclude
            dst := sideOf (zonesOf g.base.term.destinationZone b) ("dest-".toList ++ name) (admitted af g.base.term.destinationAddress)
              g.base.term.destinationAddressExclude
            services := if ap.2 then (List.range (g.base.term.protocol.erase "icmp").length).map fun j => serviceName name (j + 1) else []
            predefined := g.apps ++ if "icmp" ∈ g.base.term.protocol then ["ICMP"] else []
            dscp := dscp
            act := actOf g.base.term }] },
        (enterAll ("dest-".toList ++ name) (enterAll ("src-".toList ++ name) (st.book, c)
            (admitted af g.base.term.sourceAddress)) (admitted af g.base.term.destinationAddress)).2)

theorem step_ok {af a b : String} {st : State} {c : Nat} {g : VTerm} {name : Str} {x : State × Nat}
    (h : step af a b st c g name = .ok x) : Stepped af a b st c g name x := by
  unfold step at h
  dsimp only at h
  split at h
  · cases h
  · split at h
    · cases h
    · have flag : ∀ l m : List Net, (!l.isEmpty && m.isEmpty) = true ↔ l ≠ [] ∧ m = [] := by
        intro l m; simp
      split at h
      next h1 =>
        cases h
        rw [flag] at h1
        exact .noSrc h1.1 h1.2
      next h1 =>
        rw [flag] at h1
        split at h
        next h2 =>
          cases h
          rw [flag] at h2
          exact .noDst h1 h2.1 h2.2
        next h2 =>
          rw [flag] at h2
          obtain ⟨ps, hp, h⟩ := bind_ok h
          obtain ⟨ap, ha, h⟩ := bind_ok h
          obtain ⟨dscp, hd, h⟩ := bind_ok h
          cases h
          rw [icmpOut_ok hp] at ha ⊢
          exact .rule h1 h2 ha hd

/-! ### what rules carry -/

theorem live_of {g : VTerm} (he : elsewhere g.base.term = false) (hr : replies g.base = false) (hx : g.base.expired = false) : Live g := by
  unfold elsewhere at he
  unfold replies at hr
  simp only [Bool.or_eq_false_iff, Bool.and_eq_false_iff, Bool.not_eq_false', List.isEmpty_iff, List.contains_eq_mem,
    decide_eq_true_eq, decide_eq_false_iff_not] at he hr
  refine ⟨hx, hr.1.1, he.1, ?_, hr.1.2, hr.2⟩
  rcases he.2 with h | h
  · rw [h]; simp
  · exact h

theorem not_elsewhere {g : VTerm} (h : Live g) : elsewhere g.base.term = false ∧ replies g.base = false := by
  obtain ⟨_, h1, h2, h3, h4, h5⟩ := h
  unfold elsewhere replies
  simp only [Bool.or_eq_false_iff, Bool.and_eq_false_iff, Bool.not_eq_false', List.isEmpty_iff, List.contains_eq_mem,
    decide_eq_true_eq, decide_eq_false_iff_not]
  exact ⟨⟨h2, .inr h3⟩, ⟨h1, h4⟩, h5⟩

theorem sideOf_sided {af : String} {o : Option String} (hf : ∀ v, inFamily af v = true ↔ About o v) {own : List String} {z : String}
    {group : Str} {inc exc : List Net} (hinc : ¬ (inc ≠ [] ∧ admitted af inc = [])) :
    Sided o own z group inc exc (sideOf (zonesOf own z) group (admitted af inc) exc) := by
  have hnil : admitted af inc = [] ↔ inc = [] := by
    constructor
    · intro h
      exact Classical.byContradiction fun hn => hinc ⟨hn, h⟩
    · rintro rfl; rfl
  have he : (admitted af inc).isEmpty = decide (inc = []) := by
    rw [Bool.eq_iff_iff, List.isEmpty_iff, hnil, decide_eq_true_eq]
  have hz : zonesOf own z = [] ↔ own = [] ∧ z = "all" := by
    unfold zonesOf
    cases own with
    | nil => by_cases h : z = "all" <;> simp [h]
    | cons x xs => simp
  refine ⟨?_, ?_, ?_, ?_, ?_⟩
  · rw [← hz]
    unfold sideOf
    cases zonesOf own z <;> simp
  · intro x hx
    unfold sideOf at hx
    split at hx
    · cases hx
    next hne =>
      cases hx
      unfold zonesOf at hne ⊢
      cases own with
      | nil =>
        right
        by_cases h : z = "all" <;> simp [h] at hne ⊢
      | cons y ys => left; simp
  · intro x hx
    unfold sideOf at hx
    split at hx
    · cases hx
    · cases hx
      dsimp only
      rw [he]
      by_cases h : inc = [] <;> simp [h]
  · intro x hx
    unfold sideOf at hx
    split at hx
    · cases hx
    · cases hx
      dsimp only
      rw [he]
      by_cases h : inc = [] <;> simp [h]
  · intro hne
    cases hl : admitted af inc with
    | nil => exact absurd ⟨hne, hl⟩ hinc
    | cons n l =>
      have hm : n ∈ admitted af inc := by rw [hl]; exact List.mem_cons_self ..
      unfold admitted at hm
      rw [List.mem_filter] at hm
      exact ⟨n, hm.1, (hf n.ver).1 hm.2⟩

/-- The entries for services are those of rules, each under its own name. -/
structure Entered (apps : List App) (rules : List VRule) : Prop where
  names : (apps.map App.name).Nodup
  rule : ∀ a ∈ apps, ∃ r ∈ rules, r.name = a.name ∧
    r.services = (List.range a.protos.length).map fun j => serviceName a.name (j + 1)
  sound : ∀ r ∈ rules, r.services ≠ [] → ∃ a ∈ apps, a.name = r.name ∧
    r.services = (List.range a.protos.length).map fun j => serviceName a.name (j + 1)

theorem isNew_ok {a : App} : ∀ {l : List App}, isNew a l = .ok true → a.name ∉ l.map App.name
  | [], _ => by simp
  | s :: ss, h => by
    unfold isNew at h
    split at h
    · cases h
    · split at h
      · cases h
      next hne =>
        simp only [List.map_cons, List.mem_cons, not_or]
        exact ⟨hne, isNew_ok h⟩

theorem place_ok {a : App} {apps : List App} {x : List App × Bool} (h : place a apps = .ok x) :
    (x = (apps, false) ∧ ((a.sport = [] ∧ a.dport = [] ∧ a.protos = []) ∨ isNew a apps = .ok false)) ∨
    (x = (apps ++ [a], true) ∧ isNew a apps = .ok true ∧ ¬ (a.sport = [] ∧ a.dport = [] ∧ a.protos = [])) := by
  unfold place at h
  split at h
  next hc =>
    cases h
    simp only [Bool.and_eq_true, List.isEmpty_iff, and_assoc] at hc
    exact .inl ⟨rfl, .inl hc⟩
  next hc =>
    simp only [Bool.and_eq_true, List.isEmpty_iff, and_assoc] at hc
    obtain ⟨new, hn, h⟩ := bind_ok h
    cases h
    cases new with
    | true => exact .inr ⟨rfl, hn, hc⟩
    | false => exact .inl ⟨rfl, .inr hn⟩

theorem entered_place {a : App} {st : State} {ap : List App × Bool} (he : Entered st.apps st.rules) (h : place a st.apps = .ok ap)
    {r : VRule} (hr : r.name = a.name)
    (hs : r.services = if ap.2 then (List.range a.protos.length).map fun j => serviceName a.name (j + 1) else []) :
    Entered ap.1 (st.rules ++ [r]) := by
  rcases place_ok h with ⟨rfl, _⟩ | ⟨rfl, hn, _⟩
  · refine ⟨he.names, fun x hx => ?_, fun x hx hne => ?_⟩
    · obtain ⟨q, hq, hh⟩ := he.rule x hx
      exact ⟨q, List.mem_append.2 (.inl hq), hh⟩
    · rcases List.mem_append.1 hx with hx | hx
      · exact he.sound x hx hne
      · rw [List.mem_singleton.1 hx, hs] at hne
        exact absurd rfl hne
  · refine ⟨?_, fun x hx => ?_, fun x hx hne => ?_⟩
    · rw [List.map_append]
      refine List.nodup_append.2 ⟨he.names, by simp, ?_⟩
      intro x hx y hy e
      rw [List.mem_singleton.1 hy] at e
      have e : x = a.name := e
      exact isNew_ok hn (e ▸ hx)
    · rcases List.mem_append.1 hx with hx | hx
      · obtain ⟨q, hq, hh⟩ := he.rule x hx
        exact ⟨q, List.mem_append.2 (.inl hq), hh⟩
      · rw [List.mem_singleton.1 hx]
        exact ⟨r, List.mem_append.2 (.inr (List.mem_singleton.2 rfl)), hr, hs⟩
    · rcases List.mem_append.1 hx with hx | hx
      · obtain ⟨q, hq, hh⟩ := he.sound x hx hne
        exact ⟨q, List.mem_append.2 (.inl hq), hh⟩
      · rw [List.mem_singleton.1 hx]
        exact ⟨a, List.mem_append.2 (.inr (List.mem_singleton.2 rfl)), hr.symm, hs⟩

/-- The entries have the same items. -/
def Same (a b : App) : Prop := a.sport = b.sport ∧ a.dport = b.dport ∧ a.protos = b.protos

/-- The entry of a term. -/
def appOf (g : VTerm) : App := ⟨g.base.term.name, g.base.term.sourcePort, g.base.term.destinationPort, g.base.term.protocol.erase "icmp"⟩

theorem isNew_old {a : App} : ∀ {l : List App}, isNew a l = .ok false → ∃ s ∈ l, Same s a
  | [], h => by cases h
  | s :: ss, h => by
    unfold isNew at h
    split at h
    next hs => exact ⟨s, List.mem_cons_self .., hs⟩
    · split at h
      · cases h
      · obtain ⟨t, ht, hh⟩ := isNew_old h
        exact ⟨t, List.mem_cons_of_mem _ ht, hh⟩

theorem isNew_same {a : App} : ∀ {l : List App}, isNew a l = .ok true → ∀ s ∈ l, ¬ Same s a
  | [], _, s, hs => by cases hs
  | t :: ts, h, s, hs => by
    unfold isNew at h
    split at h
    · cases h
    next hne =>
      split at h
      · cases h
      · rcases List.mem_cons.1 hs with rfl | hs
        · exact hne
        · exact isNew_same h s hs

/-- What the terms of a filter leave behind. -/
def Outcome (o : Option String) (a b : String) (used : List Str) (st st' : State) (gs : List VTerm) : Prop :=
    ∃ outs : List (VTerm × List VRule), outs.map Prod.fst = gs ∧ st'.rules = st.rules ++ outs.flatMap Prod.snd ∧
      st'.names = st.names ∧ Entered st'.apps st'.rules ∧
      (∀ x ∈ outs, ¬ Live x.1 → x.2 = []) ∧ (∀ x ∈ outs, x.2.length ≤ 1) ∧
      (∀ x ∈ outs, ∀ r ∈ x.2, r.name = x.1.base.term.name ∧ Carries o a b x.1 r) ∧
      (∀ x ∈ outs, Live x.1 → x.2 = [] → (x.1.base.term.sourceAddress ≠ [] ∧ ∀ n ∈ x.1.base.term.sourceAddress, ¬ About o n.ver) ∨
        (x.1.base.term.destinationAddress ≠ [] ∧ ∀ n ∈ x.1.base.term.destinationAddress, ¬ About o n.ver)) ∧
      ((outs.flatMap Prod.snd).map VRule.name).Nodup ∧ (∀ r ∈ outs.flatMap Prod.snd, r.name ∉ used) ∧
      (∀ x ∈ outs, (∃ a ∈ st.apps, Same a (appOf x.1)) → ∀ r ∈ x.2, r.services = []) ∧
      outs.Pairwise fun x y => Same (appOf x.1) (appOf y.1) → x.2 ≠ [] → ∀ r ∈ y.2, r.services = []

/-- The terms of a filter: each gives at most one rule, which carries what the term says. -/
theorem loop_carries {af a b : String} {o : Option String} (hf : ∀ v, inFamily af v = true ↔ About o v) :
    ∀ {gs : List VTerm} {used : List Str} {st st' : State} {c : Nat}, termsLoop af a b used st c gs = .ok st' →
    Entered st.apps st.rules →
    Outcome o a b used st st' gs
  | [], used, st, st', c, h, he => by
    cases h
    exact ⟨[], rfl, by simp, rfl, he, (by simp), (by simp), (by simp), (by simp), by simp, by simp, (by simp), .nil⟩
  | g :: gs, used, st, st', c, h, he => by
    have none : ∀ l, admitted af l = [] → ∀ n ∈ l, ¬ About o n.ver := by
      intro l hl n hn ha
      have : n ∈ admitted af l := List.mem_filter.2 ⟨hn, (hf n.ver).2 ha⟩
      rw [hl] at this; cases this
    have skip : ¬ Live g → ∀ {used' : List Str} {st1 : State} {c1 : Nat}, (∀ n ∈ used, n ∈ used') → st1.rules = st.rules → st1.names = st.names →
        st1.apps = st.apps → termsLoop af a b used' st1 c1 gs = .ok st' → Outcome o a b used st st' (g :: gs) := by
      intro hl used' st1 c1 hu e1 e2 e3 h
      obtain ⟨outs, h1, h2, h3, h4, h5, h6, h7, h8, h9, h10, h11, h12⟩ := loop_carries hf h (by rw [e1, e3]; exact he)
      refine ⟨(g, []) :: outs, by simp [h1], by simp [h2, e1], h3.trans e2, h4, ?_, ?_, ?_, ?_, by simpa using h9, ?_, ?_, ?_⟩
      · intro x hx hn
        rcases List.mem_cons.1 hx with rfl | hx
        · rfl
        · exact h5 x hx hn
      · intro x hx
        rcases List.mem_cons.1 hx with rfl | hx
        · exact Nat.zero_le _
        · exact h6 x hx
      · intro x hx r hr
        rcases List.mem_cons.1 hx with rfl | hx
        · cases hr
        · exact h7 x hx r hr
      · intro x hx hl'
        rcases List.mem_cons.1 hx with rfl | hx
        · exact absurd hl' hl
        · exact h8 x hx hl'
      · intro r hr hm
        exact h10 r (by simpa using hr) (hu _ hm)
      · intro x hx ho r hr
        rcases List.mem_cons.1 hx with rfl | hx
        · cases hr
        · exact h11 x hx (by rw [e3]; exact ho) r hr
      · exact List.pairwise_cons.2 ⟨fun _ _ _ h => absurd rfl h, h12⟩
    unfold termsLoop at h
    split at h
    next hel =>
      exact skip (fun hl => by rw [(not_elsewhere hl).1] at hel; cases hel) (fun _ h => h) rfl rfl rfl h
    next hel =>
      split at h
      · cases h
      next href =>
        split at h
        next hrep =>
          exact skip (fun hl => by rw [(not_elsewhere hl).2] at hrep; cases hrep) (fun _ h => h) rfl rfl rfl h
        next hrep =>
          obtain ⟨name, hname, h⟩ := bind_ok h
          obtain ⟨rfl, hlen⟩ := fixed hname
          split at h
          · cases h
          next hused =>
            have hused : g.base.term.name ∉ used := fun hm => hused (List.contains_iff_mem.2 hm)
            split at h
            next hexp =>
              exact skip (fun hl => by rw [hl.1] at hexp; cases hexp) (fun _ h => List.mem_cons_of_mem _ h) rfl rfl rfl h
            next hexp =>
              have hlive : Live g := live_of (by simpa using hel) (by simpa using hrep) (by simpa using hexp)
              obtain ⟨x, hx, h⟩ := bind_ok h
              have hs := step_ok hx
              have keep : ∀ {st1 : State} {c1 : Nat}, st1.rules = st.rules → st1.names = st.names → st1.apps = st.apps →
                  (g.base.term.sourceAddress ≠ [] ∧ ∀ n ∈ g.base.term.sourceAddress, ¬ About o n.ver) ∨
                    (g.base.term.destinationAddress ≠ [] ∧ ∀ n ∈ g.base.term.destinationAddress, ¬ About o n.ver) →
                  termsLoop af a b (g.base.term.name :: used) st1 c1 gs = .ok st' →
                  Outcome o a b used st st' (g :: gs) := by
                intro st1 c1 e1 e2 e3 hun h
                obtain ⟨outs, h1, h2, h3, h4, h5, h6, h7, h8, h9, h10, h11, h12⟩ := loop_carries hf h (by rw [e1, e3]; exact he)
                refine ⟨(g, []) :: outs, by simp [h1], by simp [h2, e1], h3.trans e2, h4, ?_, ?_, ?_, ?_, by simpa using h9, ?_, ?_, ?_⟩
                · intro x hx hn
                  rcases List.mem_cons.1 hx with rfl | hx
                  · rfl
                  · exact h5 x hx hn
                · intro x hx
                  rcases List.mem_cons.1 hx with rfl | hx
                  · exact Nat.zero_le _
                  · exact h6 x hx
                · intro x hx r hr
                  rcases List.mem_cons.1 hx with rfl | hx
                  · cases hr
                  · exact h7 x hx r hr
                · intro x hx hl'
                  rcases List.mem_cons.1 hx with rfl | hx
                  · exact fun _ => hun
                  · exact h8 x hx hl'
                · intro r hr hm
                  exact h10 r (by simpa using hr) (List.mem_cons_of_mem _ hm)
                · intro x hx ho r hr
                  rcases List.mem_cons.1 hx with rfl | hx
                  · cases hr
                  · exact h11 x hx (by rw [e3]; exact ho) r hr
                · exact List.pairwise_cons.2 ⟨fun _ _ _ h => absurd rfl h, h12⟩
              cases hs with
              | noSrc h1 h2 => exact keep rfl rfl rfl (.inl ⟨h1, none _ h2⟩) h
              | noDst _ h1 h2 => refine keep ?_ ?_ ?_ (.inr ⟨h1, none _ h2⟩) h <;> rfl
              | @rule ap dscp n1 n2 hp hd =>
                have he' := entered_place he hp (r := {
                  name := g.base.term.name
                  src := sideOf (zonesOf g.base.term.sourceZone a) ("src-".toList ++ g.base.term.name) (admitted af g.base.term.sourceAddress)
                    g.base.term.sourceAddressExclude
                  dst := sideOf (zonesOf g.base.term.destinationZone b) ("dest-".toList ++ g.base.term.name) (admitted af g.base.term.destinationAddress)
                    g.base.term.destinationAddressExclude
                  services := if ap.2 then (List.range (g.base.term.protocol.erase "icmp").length).map fun j => serviceName g.base.term.name (j + 1) else []
                  predefined := g.apps ++ if "icmp" ∈ g.base.term.protocol then ["ICMP"] else []
                  dscp := dscp
                  act := actOf g.base.term }) rfl rfl
                obtain ⟨outs, h1, h2, h3, h4, h5, h6, h7, h8, h9, h10, h11, h12⟩ := loop_carries hf h he'
                refine ⟨(g, [{
                  name := g.base.term.name
                  src := sideOf (zonesOf g.base.term.sourceZone a) ("src-".toList ++ g.base.term.name) (admitted af g.base.term.sourceAddress)
                    g.base.term.sourceAddressExclude
                  dst := sideOf (zonesOf g.base.term.destinationZone b) ("dest-".toList ++ g.base.term.name) (admitted af g.base.term.destinationAddress)
                    g.base.term.destinationAddressExclude
                  services := if ap.2 then (List.range (g.base.term.protocol.erase "icmp").length).map fun j => serviceName g.base.term.name (j + 1) else []
                  predefined := g.apps ++ if "icmp" ∈ g.base.term.protocol then ["ICMP"] else []
                  dscp := dscp
                  act := actOf g.base.term }]) :: outs, by simp [h1], ?_, h3, h4, ?_, ?_, ?_, ?_, ?_, ?_, ?_, ?_⟩
                · rw [h2]; simp
                · intro x hx hn
                  rcases List.mem_cons.1 hx with rfl | hx
                  · exact absurd hlive hn
                  · exact h5 x hx hn
                · intro x hx
                  rcases List.mem_cons.1 hx with rfl | hx
                  · exact Nat.le_refl _
                  · exact h6 x hx
                · intro x hx r hr
                  rcases List.mem_cons.1 hx with rfl | hx
                  · rw [List.mem_singleton.1 hr]
                    refine ⟨rfl, hlen, sideOf_sided hf n1, sideOf_sided hf n2, ?_, rfl, dscpOf_ok hd, ?_, ?_, ?_⟩
                    · dsimp only
                      split
                      · right; rfl
                      · exact .inl rfl
                    · intro u us hu
                      dsimp only
                      unfold actOf
                      rw [hu]
                      exact ⟨_, rfl, eventOf_logs _⟩
                    · intro hu
                      dsimp only
                      unfold actOf
                      rw [hu]
                    · unfold refused at href
                      simp only [Bool.or_eq_true, not_or, Bool.not_eq_true, Bool.not_eq_false', List.isEmpty_iff] at href
                      exact href.1.2
                  · exact h7 x hx r hr
                · intro x hx hl'
                  rcases List.mem_cons.1 hx with rfl | hx
                  · intro h0; cases h0
                  · exact h8 x hx hl'
                · simp only [List.flatMap_cons, List.singleton_append, List.map_cons, List.nodup_cons]
                  refine ⟨?_, h9⟩
                  intro hm
                  obtain ⟨r, hr, e⟩ := List.mem_map.1 hm
                  exact h10 r hr (by rw [e]; exact List.mem_cons_self ..)
                · intro r hr
                  rw [List.flatMap_cons] at hr
                  rcases List.mem_append.1 hr with hr | hr
                  · rw [List.mem_singleton.1 hr]; exact hused
                  · exact fun hm => h10 r hr (List.mem_cons_of_mem _ hm)
                · intro x hx ho r hr
                  rcases List.mem_cons.1 hx with rfl | hx
                  · rw [List.mem_singleton.1 hr]
                    dsimp only
                    rcases place_ok (a := appOf g) hp with ⟨rfl, _⟩ | ⟨_, hnew, _⟩
                    · rfl
                    · obtain ⟨s, hs, hsame⟩ := ho
                      exact absurd hsame (isNew_same hnew s hs)
                  · refine h11 x hx ?_ r hr
                    obtain ⟨s, hs, hsame⟩ := ho
                    refine ⟨s, ?_, hsame⟩
                    rcases place_ok (a := appOf g) hp with ⟨rfl, _⟩ | ⟨rfl, _, _⟩
                    · exact hs
                    · exact List.mem_append.2 (.inl hs)
                · refine List.pairwise_cons.2 ⟨fun y hy hsame _ r hr => ?_, h12⟩
                  have entry : ((appOf g).sport = [] ∧ (appOf g).dport = [] ∧ (appOf g).protos = []) ∨ ∃ s ∈ ap.1, Same s (appOf g) := by
                    rcases place_ok (a := appOf g) hp with ⟨rfl, hc | hc⟩ | ⟨rfl, _, _⟩
                    · exact .inl hc
                    · exact .inr (isNew_old hc)
                    · exact .inr ⟨appOf g, List.mem_append.2 (.inr (List.mem_singleton.2 rfl)), rfl, rfl, rfl⟩
                  rcases entry with ⟨_, _, h0⟩ | ⟨s, hs, h0⟩
                  · have h0 : y.1.base.term.protocol.erase "icmp" = [] := hsame.2.2.symm.trans h0
                    rcases (h7 y hy r hr).2.services with h | h
                    · exact h
                    · rw [h, h0]; rfl
                  · exact h11 y hy ⟨s, hs, h0.1.trans hsame.1, h0.2.1.trans hsame.2.1, h0.2.2.trans hsame.2.2⟩ r hr

/-! ### groups -/

theorem Tidy.more {used : List Str} {b : Book} {c : Nat} (h : Tidy used b c) (name : Str) : Tidy (name :: used) b c :=
  ⟨h.nums, h.keys, fun z hz => by obtain ⟨n, hn, e⟩ := h.named z hz; exact ⟨n, List.mem_cons_of_mem _ hn, e⟩⟩

theorem src_ne_dest (n m : Str) : "src-".toList ++ n ≠ "dest-".toList ++ m := by
  intro e
  have : ('s' :: _ : Str) = 'd' :: _ := e
  injection this with e _
  exact absurd e (by decide)

/-- The addresses of a side are in the book. -/
def InBook (b : Book) (z : Str) (l : List Net) : Prop := l ≠ [] → ∃ k, (z, numbered k l) ∈ b

theorem InBook.mono {b b' : Book} {z : Str} {l : List Net} (h : InBook b z l) (hb : ∀ x ∈ b, x ∈ b') : InBook b' z l := by
  intro hl
  obtain ⟨k, hk⟩ := h hl
  exact ⟨k, hb _ hk⟩

theorem inBook_fresh (b : Book) (z : Str) (c : Nat) (l : List Net) : InBook (b ++ fresh z c l) z l := by
  intro hl
  refine ⟨c, List.mem_append.2 (.inr ?_)⟩
  unfold fresh
  rw [if_neg hl]
  exact List.mem_singleton.2 rfl

theorem fresh_key {z z' : Str} {c : Nat} {l : List Net} (h : z' ∈ (fresh z c l).map Prod.fst) : z' = z := by
  unfold fresh at h
  split at h
  · cases h
  · simpa using h

/-- The book after a term. -/
theorem step_book {af a b : String} {st : State} {c : Nat} {g : VTerm} {name : Str} {used : List Str} {x : State × Nat}
    (h : Stepped af a b st c g name x) (t : Tidy used st.book c) (hn : name ∉ used) :
    Tidy (name :: used) x.1.book x.2 ∧ (∀ e ∈ st.book, e ∈ x.1.book) ∧
    (¬ (g.base.term.sourceAddress ≠ [] ∧ admitted af g.base.term.sourceAddress = []) →
      InBook x.1.book ("src-".toList ++ name) (admitted af g.base.term.sourceAddress) ∧
      (¬ (g.base.term.destinationAddress ≠ [] ∧ admitted af g.base.term.destinationAddress = []) →
        InBook x.1.book ("dest-".toList ++ name) (admitted af g.base.term.destinationAddress))) := by
  have t' := t.more name
  have k1 : "src-".toList ++ name ∉ st.book.map Prod.fst := by
    intro hm
    obtain ⟨n, hu, e | e⟩ := t.named _ hm
    · exact hn (List.append_cancel_left e ▸ hu)
    · exact src_ne_dest _ _ e
  have k2 : ∀ c l, "dest-".toList ++ name ∉ (st.book ++ fresh ("src-".toList ++ name) c l).map Prod.fst := by
    intro c l hm
    rw [List.map_append] at hm
    rcases List.mem_append.1 hm with hm | hm
    · obtain ⟨n, hu, e | e⟩ := t.named _ hm
      · exact src_ne_dest _ _ e.symm
      · exact hn (List.append_cancel_left e ▸ hu)
    · exact src_ne_dest _ _ (fresh_key hm).symm
  have mem : name ∈ name :: used := List.mem_cons_self ..
  cases h with
  | noSrc h1 h2 => exact ⟨t', fun _ h => h, fun h => absurd ⟨h1, h2⟩ h⟩
  | noDst _ h1 h2 =>
    rw [enterAll_new k1]
    refine ⟨tidy_fresh t' mem (.inl rfl) k1 _, fun e he => List.mem_append.2 (.inl he), fun _ => ⟨inBook_fresh _ _ _ _, fun h => absurd ⟨h1, h2⟩ h⟩⟩
  | rule _ _ _ _ =>
    dsimp only
    rw [enterAll_new k1, enterAll_new (k2 _ _)]
    refine ⟨tidy_fresh (tidy_fresh t' mem (.inl rfl) k1 _) mem (.inr rfl) (k2 _ _) _,
      fun e he => List.mem_append.2 (.inl (List.mem_append.2 (.inl he))), fun _ => ⟨?_, fun _ => inBook_fresh _ _ _ _⟩⟩
    exact (inBook_fresh _ _ _ _).mono fun _ h => List.mem_append.2 (.inl h)

/-- The book after the terms of a filter, if it was tidy before. -/
theorem loop_book {af a b : String} : ∀ {gs : List VTerm} {used : List Str} {st st' : State} {c : Nat},
    termsLoop af a b used st c gs = .ok st' → Tidy used st.book c →
    (∃ used' c', Tidy used' st'.book c') ∧ (∀ e ∈ st.book, e ∈ st'.book) ∧
    ∀ g ∈ gs, Live g → ¬ (g.base.term.sourceAddress ≠ [] ∧ admitted af g.base.term.sourceAddress = []) →
      InBook st'.book ("src-".toList ++ g.base.term.name) (admitted af g.base.term.sourceAddress) ∧
      (¬ (g.base.term.destinationAddress ≠ [] ∧ admitted af g.base.term.destinationAddress = []) →
        InBook st'.book ("dest-".toList ++ g.base.term.name) (admitted af g.base.term.destinationAddress))
  | [], used, st, st', c, h, t => by
    cases h
    exact ⟨⟨used, c, t⟩, fun _ h => h, fun g hg => by cases hg⟩
  | g :: gs, used, st, st', c, h, t => by
    have skip : ∀ {used' : List Str}, ¬ Live g → termsLoop af a b used' st c gs = .ok st' → Tidy used' st.book c →
        (∃ used' c', Tidy used' st'.book c') ∧ (∀ e ∈ st.book, e ∈ st'.book) ∧
        ∀ g' ∈ g :: gs, Live g' → ¬ (g'.base.term.sourceAddress ≠ [] ∧ admitted af g'.base.term.sourceAddress = []) →
          InBook st'.book ("src-".toList ++ g'.base.term.name) (admitted af g'.base.term.sourceAddress) ∧
          (¬ (g'.base.term.destinationAddress ≠ [] ∧ admitted af g'.base.term.destinationAddress = []) →
            InBook st'.book ("dest-".toList ++ g'.base.term.name) (admitted af g'.base.term.destinationAddress)) := by
      intro used' hl h t
      obtain ⟨h1, h2, h3⟩ := loop_book h t
      refine ⟨h1, h2, fun g' hg => ?_⟩
      rcases List.mem_cons.1 hg with rfl | hg
      · exact fun h => absurd h hl
      · exact h3 g' hg
    unfold termsLoop at h
    split at h
    next hel => exact skip (fun hl => by rw [(not_elsewhere hl).1] at hel; cases hel) h t
    next hel =>
      split at h
      · cases h
      · split at h
        next hrep => exact skip (fun hl => by rw [(not_elsewhere hl).2] at hrep; cases hrep) h t
        next hrep =>
          obtain ⟨name, hname, h⟩ := bind_ok h
          obtain ⟨rfl, hlen⟩ := fixed hname
          split at h
          · cases h
          next hused =>
            have hused : g.base.term.name ∉ used := fun hm => hused (List.contains_iff_mem.2 hm)
            split at h
            next hexp => exact skip (fun hl => by rw [hl.1] at hexp; cases hexp) h (t.more _)
            next hexp =>
              obtain ⟨x, hx, h⟩ := bind_ok h
              obtain ⟨t1, s1, i1⟩ := step_book (step_ok hx) t hused
              obtain ⟨h1, h2, h3⟩ := loop_book h t1
              refine ⟨h1, fun e he => h2 e (s1 e he), fun g' hg => ?_⟩
              rcases List.mem_cons.1 hg with rfl | hg
              · intro _ hs
                obtain ⟨a1, a2⟩ := i1 hs
                exact ⟨a1.mono h2, fun hd => (a2 hd).mono h2⟩
              · exact h3 g' hg

/-! ### services -/

/-- The term has an entry. -/
def Needs (g : VTerm) : Prop := ¬ ((appOf g).sport = [] ∧ (appOf g).dport = [] ∧ (appOf g).protos = [])

/-- The term gives a rule. -/
def Kept (af : String) (g : VTerm) : Prop :=
  ¬ (g.base.term.sourceAddress ≠ [] ∧ admitted af g.base.term.sourceAddress = []) ∧
  ¬ (g.base.term.destinationAddress ≠ [] ∧ admitted af g.base.term.destinationAddress = [])

theorem place_needless {g : VTerm} {apps : List App} {ap : List App × Bool} (hn : ¬ Needs g) (h : place (appOf g) apps = .ok ap) :
    ap.1 = apps := by
  rcases place_ok h with ⟨rfl, _⟩ | ⟨rfl, _, hn'⟩
  · rfl
  · exact absurd hn' hn

/-- The steps of a loop, without those of terms that are not live. -/
theorem loop_cases {af a b : String} {g : VTerm} {gs : List VTerm} {used : List Str} {st st' : State} {c : Nat}
    (h : termsLoop af a b used st c (g :: gs) = .ok st') :
    (¬ Live g ∧ ∃ used', termsLoop af a b used' st c gs = .ok st') ∨
    (Live g ∧ ∃ x, Stepped af a b st c g g.base.term.name x ∧ termsLoop af a b (g.base.term.name :: used) x.1 x.2 gs = .ok st') := by
  unfold termsLoop at h
  split at h
  next hel => exact .inl ⟨(fun hl => by rw [(not_elsewhere hl).1] at hel; cases hel), _, h⟩
  next hel =>
    split at h
    · cases h
    · split at h
      next hrep => exact .inl ⟨(fun hl => by rw [(not_elsewhere hl).2] at hrep; cases hrep), _, h⟩
      next hrep =>
        obtain ⟨name, hname, h⟩ := bind_ok h
        obtain ⟨rfl, hlen⟩ := fixed hname
        split at h
        · cases h
        · split at h
          next hexp => exact .inl ⟨(fun hl => by rw [hl.1] at hexp; cases hexp), _, h⟩
          next hexp =>
            obtain ⟨x, hx, h⟩ := bind_ok h
            exact .inr ⟨live_of (by simpa using hel) (by simpa using hrep) (by simpa using hexp), x, step_ok hx, h⟩

theorem loop_needless {af a b : String} : ∀ {gs : List VTerm} {used : List Str} {st st' : State} {c : Nat},
    termsLoop af a b used st c gs = .ok st' → (∀ g ∈ gs, Live g → ¬ Needs g) → st'.apps = st.apps
  | [], used, st, st', c, h, _ => by cases h; rfl
  | g :: gs, used, st, st', c, h, hn => by
    have hn' : ∀ g ∈ gs, Live g → ¬ Needs g := fun g hg => hn g (List.mem_cons_of_mem _ hg)
    rcases loop_cases h with ⟨_, _, h⟩ | ⟨hl, x, hs, h⟩
    · exact loop_needless h hn'
    · rw [loop_needless h hn']
      cases hs with
      | noSrc _ _ => rfl
      | noDst _ _ _ => rfl
      | rule _ _ hp _ => exact place_needless (hn g (List.mem_cons_self ..) hl) hp

/-- If one term at most needs an entry, then it gets it. -/
theorem loop_apps {af a b : String} : ∀ {gs : List VTerm} {used : List Str} {st st' : State} {c : Nat},
    termsLoop af a b used st c gs = .ok st' → gs.Pairwise (fun g g' => ¬ (Live g ∧ Needs g ∧ Live g' ∧ Needs g')) → st.apps = [] →
    ∀ g ∈ gs, Live g → Needs g → Kept af g → st'.apps = [appOf g]
  | [], used, st, st', c, h, _, _ => by intro g hg; cases hg
  | g0 :: gs, used, st, st', c, h, hp, h0 => by
    intro g hg hl hn hk
    rw [List.pairwise_cons] at hp
    rcases loop_cases h with ⟨hd, _, h⟩ | ⟨hl0, x, hs, h⟩
    · rcases List.mem_cons.1 hg with rfl | hg
      · exact absurd hl hd
      · exact loop_apps h hp.2 h0 g hg hl hn hk
    · by_cases hn0 : Needs g0
      · have idle : ∀ g ∈ gs, Live g → ¬ Needs g := fun g hg hl hn => hp.1 g hg ⟨hl0, hn0, hl, hn⟩
        rcases List.mem_cons.1 hg with rfl | hg
        · cases hs with
          | noSrc h1 h2 => exact absurd ⟨h1, h2⟩ hk.1
          | noDst _ h1 h2 => exact absurd ⟨h1, h2⟩ hk.2
          | rule _ _ hpl _ =>
            rw [loop_needless h idle]
            dsimp only
            rw [h0] at hpl
            rcases place_ok (a := appOf g) hpl with ⟨_, hc | hc⟩ | ⟨rfl, _, _⟩
            · exact absurd hc hn
            · cases hc
            · rfl
        · exact absurd hn (idle g hg hl)
      · rcases List.mem_cons.1 hg with rfl | hg
        · exact absurd hn hn0
        · refine loop_apps h hp.2 ?_ g hg hl hn hk
          cases hs with
          | noSrc _ _ => exact h0
          | noDst _ _ _ => exact h0
          | rule _ _ hpl _ => exact (place_needless hn0 hpl).trans h0

/-! ### large terms -/

theorem small_length {af : String} {g : VTerm} (h : Small g) : ¬ byteLength af g.base.term > 1023 := by
  have : ∀ l : List Net, ((l.filter fun n => inFamily af n.ver).map Verif.Srx.weight).sum ≤
      (l.map fun n => if n.ver = .v6 then 4 else 1).sum := by
    intro l
    induction l with
    | nil => exact Nat.le_refl _
    | cons n l ih =>
      rw [List.filter_cons, List.map_cons, List.sum_cons]
      split
      · rw [List.map_cons, List.sum_cons]
        have : Verif.Srx.weight n = if n.ver = .v6 then 4 else 1 := rfl
        omega
      · omega
  have h1 := this (g.base.term.sourceAddress ++ g.base.term.destinationAddress)
  unfold Small at h
  unfold byteLength
  omega

theorem chunks_among {side : String} {name : Str} {l s : List Net} (h : s ∈ Verif.Srx.chunks side name l) :
    Among s l ∧ (l ≠ [] → s ≠ []) := by
  have ok := Props.chunkLoop_ok l 0 [] rfl (by omega)
  have fl := Props.chunkLoop_flatten l 0 []
  unfold Verif.Srx.chunks at h
  obtain ⟨e, he, rfl⟩ := List.mem_map.1 h
  have he : e.1 ∈ Verif.Srx.chunkLoop 0 [] l := (List.mem_zipIdx' he).2 ▸ List.getElem_mem _
  refine ⟨fun n hn => ?_, fun hl => ?_⟩
  · obtain ⟨m, hm, rfl⟩ := List.mem_map.1 hn
    refine ⟨m, ?_, rfl, rfl, rfl⟩
    rw [← List.nil_append l, ← fl]
    exact List.mem_flatten.2 ⟨e.1, he, hm⟩
  · rw [Ne, List.map_eq_nil_iff]
    exact (ok e.1 he).2 (.inr hl)

/-- The pieces of a term. -/
def piecesOf (af : String) (g : VTerm) : List VTerm :=
  if byteLength af g.base.term > 1023 then (parts g.base).map fun b => { g with base := b } else [g]

theorem cut_pieces (af : String) (g : VTerm) : Cut g (piecesOf af g) := by
  unfold piecesOf
  split
  next hb =>
    refine .inr ⟨fun hs => small_length hs hb, fun g' hg => ?_, fun p => ?_⟩
    · obtain ⟨q, hq, rfl⟩ := List.mem_map.1 hg
      obtain ⟨s, hs, d, hd, i, rfl⟩ := Props.mem_parts hq
      exact ⟨i, s, d, rfl, (chunks_among hs).1, (chunks_among hd).1, (chunks_among hs).2, (chunks_among hd).2⟩
    · rw [← Props.parts_match]
      constructor
      · rintro ⟨g', hg, hm⟩
        obtain ⟨q, hq, rfl⟩ := List.mem_map.1 hg
        exact ⟨q, hq, hm⟩
      · rintro ⟨q, hq, hm⟩
        exact ⟨_, List.mem_map.2 ⟨q, hq, rfl⟩, hm⟩
  · exact .inl rfl

theorem fixLarge_eq (af : String) (gs : List VTerm) : fixLarge af gs = gs.flatMap (piecesOf af) := rfl

/-! ### filters -/

theorem translate_blocks : ∀ {fs : List Filter} {st st' : State}, translate st fs = .ok st' → Entered st.apps st.rules →
    ∃ bs : List Block, bs.map Block.filter = fs.filter Filter.here ∧ (∀ b ∈ bs, Rendered b) ∧
      st'.rules = st.rules ++ bs.flatMap Block.rules ∧ Entered st'.apps st'.rules ∧
      (∀ b ∈ bs, b.outs.Pairwise fun x y => Same (appOf x.1) (appOf y.1) → x.2 ≠ [] → ∀ r ∈ y.2, r.services = []) ∧
      st'.names = (bs.flatMap Block.pairs).foldl (fun n kv => n.set kv.1 kv.2) st.names
  | [], st, st', h, he => by
    cases h
    exact ⟨[], rfl, (by simp), by simp, he, (by simp), rfl⟩
  | f :: fs, st, st', h, he => by
    unfold translate at h
    split at h
    next hh =>
      obtain ⟨hd, h1, h⟩ := bind_ok h
      obtain ⟨st1, h2, h⟩ := bind_ok h
      obtain ⟨ns, o, hhead, hf, hns⟩ := header_ok h1
      obtain ⟨outs, a1, a2, a3, a4, a5, a6, a7, a8, a9, _, _, a12⟩ := loop_carries hf h2 he
      obtain ⟨bs, b1, b2, b3, b4, b6, b5⟩ := translate_blocks h a4
      refine ⟨⟨f, hd.1, hd.2.1, ns, o, f.terms.map fun g => (g, piecesOf hd.2.2.1 g), outs⟩ :: bs, ?_, ?_, ?_, b4, ?_, ?_⟩
      · rw [List.map_cons, b1, List.filter_cons, if_pos hh]
      · intro b hb
        rcases List.mem_cons.1 hb with rfl | hb
        · refine ⟨hhead, ?_, ?_, ?_, a5, a6, a7, a8, a9⟩
          · dsimp only
            rw [List.map_map]
            exact List.map_id _
          · intro x hx
            obtain ⟨g, _, rfl⟩ := List.mem_map.1 hx
            exact cut_pieces _ _
          · dsimp only
            rw [a1, fixLarge_eq, List.flatMap_map]
        · exact b2 b hb
      · rw [b3, a2, List.flatMap_cons, List.append_assoc]
        rfl
      · intro b hb
        rcases List.mem_cons.1 hb with rfl | hb
        · exact a12
        · exact b6 b hb
      · rw [b5, a3, List.flatMap_cons, List.foldl_append, hns]
    next hh =>
      obtain ⟨bs, b1, b⟩ := translate_blocks h he
      exact ⟨bs, by rw [b1, List.filter_cons, if_neg hh], b⟩

theorem entered_nil : Entered ({} : State).apps ({} : State).rules := ⟨List.nodup_nil, (by simp), (by simp)⟩

theorem translate_here : ∀ (fs : List Filter) (st : State), translate st fs = translate st (fs.filter Filter.here)
  | [], st => rfl
  | f :: fs, st => by
    rw [List.filter_cons]
    split
    next hh =>
      unfold translate
      rw [if_pos hh, if_pos hh]
      congr 1
      funext hd
      congr 1
      funext st'
      exact translate_here fs st'
    next hh =>
      rw [translate, if_neg hh]
      exact translate_here fs st

theorem named_foldl (pairs : List (String × String)) : ∀ (n : Names), (∀ kv ∈ pairs, kv.1 ∈ ["template", "tenant", "policy"]) →
    let m := pairs.foldl (fun n kv => n.set kv.1 kv.2) n
    m.template = named pairs "template" n.template ∧ m.tenant = named pairs "tenant" n.tenant ∧ m.policy = named pairs "policy" n.policy := by
  induction pairs with
  | nil => intro n _; exact ⟨rfl, rfl, rfl⟩
  | cons kv pairs ih =>
    intro n hk
    obtain ⟨i1, i2, i3⟩ := ih (n.set kv.1 kv.2) fun x hx => hk x (List.mem_cons_of_mem _ hx)
    have cons : ∀ k d, named (kv :: pairs) k d = named pairs k (if kv.1 = k ∧ kv.2 ≠ "" then kv.2 else d) := by
      intro k d
      unfold named
      rw [List.filter_cons]
      split
      next h =>
        have h := of_decide_eq_true h
        rw [if_pos h, List.map_cons, List.getLast?_cons]
        cases (List.map Prod.snd (List.filter (fun kv => decide (kv.1 = k ∧ kv.2 ≠ "")) pairs)).getLast? <;> rfl
      next h =>
        rw [if_neg (by simpa using h)]
    dsimp only at i1 i2 i3 ⊢
    rw [List.foldl_cons, i1, i2, i3, cons, cons, cons]
    have := hk kv (List.mem_cons_self ..)
    obtain ⟨k, v⟩ := kv
    dsimp only at this ⊢
    unfold Names.set
    by_cases hv : v = ""
    · simp [hv]
    · simp only [List.mem_cons, List.not_mem_nil, or_false] at this
      rcases this with rfl | rfl | rfl <;> simp [hv]

theorem says_words {rest : List String} {ns : List (String × String)} {o : Option String} (h : Says rest ns o) :
    ∀ kv ∈ ns, kv.1 ∈ ["template", "tenant", "policy"] := by
  induction h with
  | nil => simp
  | pair hk _ ih =>
    intro kv hkv
    rcases List.mem_cons.1 hkv with rfl | hkv
    · exact hk
    · exact ih kv hkv
  | family _ _ ih => exact ih
  | quiet _ _ _ ih => exact ih

end Verif.Lemmas.VersaL
