import Verif.Lemmas.NamingMore
import Verif.Lemmas.NacMore
import Verif.Lemmas.Translate
import Verif.Spec.Cgrep
import Verif.Props.Naming

/-!
Lemmas for the search tools.
-/

namespace Verif.Lemmas.CgrepL
open Verif Verif.Spec Verif.Naming Verif.PyStr Verif.Cgrep Verif.Lemmas
open Verif.Spec.Cgrep (NetsOk SvcsOk Address Contains Holds Shown Keeps)

theorem wf_of_block {a b : Net} (h : block a = block b) (w : WF b) : WF a := by
  unfold block at h
  simp only [Prod.mk.injEq] at h
  obtain ⟨h1, h2, h3⟩ := h
  exact ⟨by rw [h1, h3]; exact w.plen_le, by rw [h1, h2, h3]; exact w.aligned, by rw [h1, h2, h3]; exact w.range⟩

theorem reach_any {d : Defs} {leaf : Str → Prop} {t u : Str} (h : Reach d leaf t u) : Reach d AnyRef t u := by
  induction h with
  | refl => exact .refl
  | step _ h2 _ ih => exact .step ih h2 id

theorem noLoop_any {d : Defs} (leaf : Str → Prop) (h : NoLoop d AnyRef) : NoLoop d leaf :=
  fun t v hv _ hr => h t v hv id (reach_any hr)

theorem netOf_key {nets : Defs} {ip : IpParser} {t : Str} {a : Net} {s : Str} (h : NetOf nets ip t a s) :
    t ∈ keys nets := by
  obtain ⟨hr, v, hv, _⟩ := h
  rcases reach_cases hr with rfl | ⟨_, h, _⟩
  · exact above_key hv
  · exact above_key h

theorem exact_wf {nets : Defs} {ip : IpParser} (hwf : ∀ v a, ip v = some a → WF a) {t : Str} {l : List Net}
    (h : NetsExact nets ip t l) : ∀ n ∈ l, WF n := by
  intro n hn
  obtain ⟨a, s, ⟨_, v, _, ha⟩, hb, _⟩ := h.1 n hn
  exact wf_of_block hb (hwf v a ha)

theorem exact_den {nets : Defs} {ip : IpParser} {t : Str} {l : List Net}
    (h : NetsExact nets ip t l) (v : Ver) (x : Nat) : Den l v x ↔ Holds nets ip t v x := by
  constructor
  · rintro ⟨n, hn, hm⟩
    obtain ⟨a, s, hof, hb, _⟩ := h.1 n hn
    exact ⟨a, s, hof, (Props.mem_of_block hb).1 hm⟩
  · rintro ⟨a, s, hof, hm⟩
    obtain ⟨n, hn, hb, _⟩ := h.2 a s hof
    exact ⟨n, hn, (Props.mem_of_block hb).2 hm⟩

theorem resolve {nets : Defs} {ip : IpParser} (h : NetsOk nets ip) {t : Str} (ht : t ∈ keys nets) :
    ∃ l, getNet nets ip t = .ok l ∧ NetsExact nets ip t l :=
  Props.C22_resolves_partial h.items h.dots (h.words t ht)
    (noCycle_of_noLoop (noLoop_any _ h.noloop) t) (h.defined t ht)

theorem getNet_exact {nets : Defs} {ip : IpParser} (hi : ItemsOk nets) (hip : DotOrColon ip) {t : Str}
    (ht : Word t) {l : List Net} (h : getNet nets ip t = .ok l) : NetsExact nets ip t l :=
  (Props.C22_result_exact hi hip ht h).1

theorem getNets_one {db : Db} {t : Str} {l : List Net} (h : getNet db.nets db.ip t = .ok l) :
    getNets db [t] = .ok [(t, l)] := by
  unfold getNets each
  rw [h]
  rfl

theorem getNets_one_err {db : Db} {t : Str} {e : Err} (h : getNet db.nets db.ip t = .error e) :
    getNets db [t] = .error e := by
  unfold getNets each
  rw [h]
  rfl

theorem encapsulated_eq {db : Db} {a b : Str} {l m : List Net} (h1 : getNet db.nets db.ip a = .ok l)
    (h2 : getNet db.nets db.ip b = .ok m) :
    checkEncapsulated db "network".toList a b = .ok (inside l m) := by
  unfold checkEncapsulated
  rw [if_pos (by decide), getNets_one h1, getNets_one h2]
  rfl

theorem encapsulated_inv {db : Db} {a b : Str} {r : Bool}
    (h : checkEncapsulated db "network".toList a b = .ok r) :
    ∃ l m, getNet db.nets db.ip a = .ok l ∧ getNet db.nets db.ip b = .ok m ∧ r = inside l m := by
  cases h1 : getNet db.nets db.ip a with
  | error e =>
    unfold checkEncapsulated at h
    rw [if_pos (by decide), getNets_one_err h1] at h
    cases h
  | ok l =>
    cases h2 : getNet db.nets db.ip b with
    | error e =>
      unfold checkEncapsulated at h
      rw [if_pos (by decide), getNets_one h1, getNets_one_err h2] at h
      cases h
    | ok m =>
      rw [encapsulated_eq h1 h2] at h
      cases h
      exact ⟨l, m, rfl, rfl, rfl⟩

theorem inside_super (l m : List Net) : inside l m = Nacaddr.isSuperNet m l := by
  unfold inside Nacaddr.isSuperNet Nacaddr.inNetList
  congr 1
  funext o
  congr 1
  funext s
  unfold Net.subnetOf
  cases o.ver == s.ver <;> rfl

/-! ### addresses -/

theorem parents_address {db : Db} (h : NetsOk db.nets db.ip) {q : Str} {a : Net} (hq : Address db.strict q a) :
    ∃ l, getIpParentsStr db.nets db.ip db.strict q = .ok l ∧ l.Nodup ∧
      ∀ t, t ∈ l ↔ Contains db.nets db.ip t a := by
  obtain ⟨hd, hs, hw⟩ := hq
  unfold getIpParentsStr
  rw [if_pos (digitHead_iff.2 hd), hs]
  obtain ⟨l, h1, h2, h3⟩ := getIpParents_correct h.items h.nodup h.names h.digits (noLoop_any _ h.noloop) a
  refine ⟨l, h1, ?_, fun t => ?_⟩
  · refine h2.imp ?_
    intro x y hxy e
    subst e
    rw [strLt_irrefl] at hxy
    cases hxy
  · rw [h3]
    constructor
    · rintro ⟨b, s, hof, hb⟩
      obtain ⟨v, _, hv⟩ := hof.2
      exact ⟨b, s, hof, (subnetOf_iff hw (h.wf v b hv)).1 hb⟩
    · rintro ⟨b, s, hof, hb⟩
      obtain ⟨v, _, hv⟩ := hof.2
      exact ⟨b, s, hof, (subnetOf_iff hw (h.wf v b hv)).2 hb⟩

theorem each_ok {f : α → Except Err β} {l : List α} (h : ∀ x ∈ l, ∃ y, f x = .ok y) :
    ∃ r, each f l = .ok r ∧ ∀ y, y ∈ r ↔ ∃ x ∈ l, f x = .ok y := by
  induction l with
  | nil => exact ⟨[], rfl, by simp⟩
  | cons x xs ih =>
    obtain ⟨y, hy⟩ := h x (List.mem_cons_self ..)
    obtain ⟨ys, h1, h2⟩ := ih fun z hz => h z (List.mem_cons_of_mem _ hz)
    refine ⟨y :: ys, ?_, fun z => ?_⟩
    · unfold each
      rw [hy, h1]
      rfl
    · rw [List.mem_cons, h2]
      constructor
      · rintro (rfl | ⟨w, hw, hz⟩)
        · exact ⟨x, List.mem_cons_self .., hy⟩
        · exact ⟨w, List.mem_cons_of_mem _ hw, hz⟩
      · rintro ⟨w, hw, hz⟩
        rcases List.mem_cons.1 hw with rfl | hw
        · rw [hy] at hz; cases hz; exact .inl rfl
        · exact .inr ⟨w, hw, hz⟩

/-! ### the networks of a token that contain an address -/

/-- one step of `highest` -/
def hstep (q : Net) (acc : Nat × List Net) (n : Net) : Nat × List Net :=
  if q.ver == n.ver && q.subnetOf n then (if n.plen > acc.1 then n.plen else acc.1, acc.2 ++ [n]) else acc

theorem highest_eq (q : Net) (l : List Net) : highest q l = l.foldl (hstep q) (0, []) := rfl

theorem highest_keeps {q : Net} (hq : WF q) : ∀ (l : List Net), (∀ n ∈ l, WF n) → ∀ acc : Nat × List Net,
    (∀ n ∈ acc.2, n.plen ≤ acc.1) → (acc.1 = 0 ∨ ∃ n ∈ acc.2, n.plen = acc.1) →
    ∃ m, Keeps q l m ∧ (l.foldl (hstep q) acc).2 = acc.2 ++ m ∧
      (∀ n ∈ (l.foldl (hstep q) acc).2, n.plen ≤ (l.foldl (hstep q) acc).1) ∧
      ((l.foldl (hstep q) acc).1 = 0 ∨ ∃ n ∈ (l.foldl (hstep q) acc).2, n.plen = (l.foldl (hstep q) acc).1) := by
  intro l
  induction l with
  | nil => intro _ acc h1 h2; exact ⟨[], .nil, by simp, h1, h2⟩
  | cons n l ih =>
    intro hw acc h1 h2
    have hn := hw n (List.mem_cons_self ..)
    have hl := fun k hk => hw k (List.mem_cons_of_mem _ hk)
    rw [List.foldl_cons]
    by_cases hc : (q.ver == n.ver && q.subnetOf n) = true
    · have hin : Spec.Cgrep.Within q n := (subnetOf_iff hq hn).1 (by
        rw [Bool.and_eq_true] at hc; exact hc.2)
      have hs : hstep q acc n = (if n.plen > acc.1 then n.plen else acc.1, acc.2 ++ [n]) := by
        unfold hstep; rw [if_pos hc]
      obtain ⟨m, a1, a2, a3, a4⟩ := ih hl (hstep q acc n) (by
        rw [hs]
        intro k hk
        dsimp only at hk ⊢
        rcases List.mem_append.1 hk with hk | hk
        · have := h1 k hk
          split <;> omega
        · rw [List.mem_singleton] at hk
          subst hk
          split <;> omega) (by
        rw [hs]
        dsimp only
        split
        · exact .inr ⟨n, by simp, rfl⟩
        · rcases h2 with h2 | ⟨k, hk, he⟩
          · exact .inl h2
          · exact .inr ⟨k, by simp [hk], he⟩)
      refine ⟨n :: m, .keep hin a1, ?_, a3, a4⟩
      rw [a2, hs]
      simp
    · have hin : ¬ Spec.Cgrep.Within q n := by
        intro hin
        have h' := (subnetOf_iff hq hn).2 hin
        apply hc
        rw [h', Bool.and_true]
        unfold Net.subnetOf at h'
        rw [Bool.and_eq_true, Bool.and_eq_true] at h'
        exact h'.1.1
      have hs : hstep q acc n = acc := by unfold hstep; rw [if_neg hc]
      rw [hs]
      obtain ⟨m, a1, a2, a3, a4⟩ := ih hl acc h1 h2
      exact ⟨m, .skip hin a1, a2, a3, a4⟩

theorem highest_spec {q : Net} (hq : WF q) {l : List Net} (hw : ∀ n ∈ l, WF n) :
    Keeps q l (highest q l).2 ∧ (∀ n ∈ (highest q l).2, n.plen ≤ (highest q l).1) ∧
      ((highest q l).1 = 0 ∨ ∃ n ∈ (highest q l).2, n.plen = (highest q l).1) := by
  obtain ⟨m, a1, a2, a3, a4⟩ := highest_keeps hq l hw (0, []) (by simp) (.inl rfl)
  rw [highest_eq]
  rw [List.nil_append] at a2
  exact ⟨by rw [a2]; exact a1, a3, a4⟩

theorem keeps_mem {q : Net} {l m : List Net} (h : Keeps q l m) : ∀ n, n ∈ m ↔ n ∈ l ∧ Spec.Cgrep.Within q n := by
  induction h with
  | nil => simp
  | keep h _ ih =>
    intro n
    rw [List.mem_cons, List.mem_cons, ih]
    constructor
    · rintro (rfl | ⟨h1, h2⟩)
      · exact ⟨.inl rfl, h⟩
      · exact ⟨.inr h1, h2⟩
    · rintro ⟨rfl | h1, h2⟩
      · exact .inl rfl
      · exact .inr ⟨h1, h2⟩
  | skip h _ ih =>
    intro n
    rw [List.mem_cons, ih]
    constructor
    · rintro ⟨h1, h2⟩; exact ⟨.inr h1, h2⟩
    · rintro ⟨rfl | h1, h2⟩
      · exact absurd h2 h
      · exact ⟨h1, h2⟩

theorem keeps_unique {q : Net} {l m m' : List Net} (h : Keeps q l m) (h' : Keeps q l m') : m = m' := by
  induction h generalizing m' with
  | nil => cases h'; rfl
  | keep h _ ih =>
    cases h' with
    | keep _ h2 => rw [ih h2]
    | skip h1 _ => exact absurd h h1
  | skip h _ ih =>
    cases h' with
    | keep h1 _ => exact absurd h1 h
    | skip _ h2 => exact ih h2

/-- The lines of one token. -/
theorem parentLines_spec {db : Db} (h : NetsOk db.nets db.ip) {q : Str} {a : Net} (hq : Address db.strict q a)
    {t : Str} (ht : Contains db.nets db.ip t a) :
    ∃ r, parentLines db q t = .ok r ∧ ∃ ns, getNet db.nets db.ip t = .ok ns ∧
      (∀ name k ms, (name, k, ms) ∈ r ↔
        (k = (highest a ns).1 ∧ ms = (highest a ns).2 ∧ Shown db.nets db.ip a name t)) := by
  obtain ⟨ns, hns, hex⟩ := resolve h (netOf_key ht.choose_spec.choose_spec.1)
  obtain ⟨par, hp, hpm⟩ := Props.C26_parents_partial h.items h.nodup h.bare h.noloop t
  unfold parentLines netsAndHighest parseIp
  rw [hp, hq.2.1, getNets_one hns]
  refine ⟨_, rfl, ns, hns, fun name k ms => ?_⟩
  show (name, k, ms) ∈ (if par.isEmpty then _ else _ : List (Str × Nat × List Net)) ↔ _
  cases par with
  | nil =>
    rw [if_pos List.isEmpty_nil, List.mem_singleton, Prod.mk.injEq]
    constructor
    · rintro ⟨rfl, he⟩
      have he : (k, ms) = highest a ns := he
      refine ⟨by rw [← he], by rw [← he], ht, .inl ⟨rfl, fun n hn => ?_⟩⟩
      exact absurd ((hpm n).2 hn) (by simp)
    · rintro ⟨rfl, rfl, _, ⟨rfl, _⟩ | ⟨n, hn, _⟩⟩
      · exact ⟨rfl, rfl⟩
      · exact absurd ((hpm n).2 hn) (by simp)
  | cons p ps =>
    rw [if_neg (by simp), List.mem_map]
    constructor
    · rintro ⟨n, hn, he⟩
      rw [Prod.mk.injEq] at he
      obtain ⟨he1, he2⟩ := he
      have he : highest a ns = (k, ms) := he2
      exact ⟨by rw [he], by rw [he], ht, .inr ⟨n, (hpm n).1 hn, he1.symm⟩⟩
    · rintro ⟨rfl, rfl, _, ⟨rfl, hno⟩ | ⟨n, hn, rfl⟩⟩
      · exact absurd ((hpm p).1 (List.mem_cons_self ..)) (hno p)
      · exact ⟨n, (hpm n).2 hn, rfl⟩

theorem ipParents_spec {db : Db} (h : NetsOk db.nets db.ip) {q : Str} {a : Net} (hq : Address db.strict q a) :
    ∃ r, ipParents db q = .ok r ∧
      (∀ name ms, (name, ms) ∈ r ↔ ∃ t ns, Shown db.nets db.ip a name t ∧
        getNet db.nets db.ip t = .ok ns ∧ Keeps a ns ms) ∧
      r.Pairwise (fun x y => ∀ n ∈ y.2, ∃ m ∈ x.2, n.plen ≤ m.plen) := by
  obtain ⟨l, hl, _, hm⟩ := parents_address h hq
  obtain ⟨ls, h1, h2⟩ := each_ok (f := parentLines db q) (l := l) fun t ht =>
    let ⟨r, hr, _⟩ := parentLines_spec h hq ((hm t).1 ht)
    ⟨r, hr⟩
  have hmem : ∀ name k ms, (name, k, ms) ∈ ls.flatten ↔ ∃ t ns, Shown db.nets db.ip a name t ∧
      getNet db.nets db.ip t = .ok ns ∧ k = (highest a ns).1 ∧ ms = (highest a ns).2 := by
    intro name k ms
    rw [List.mem_flatten]
    constructor
    · rintro ⟨r, hr, hx⟩
      obtain ⟨t, ht, hp⟩ := (h2 r).1 hr
      obtain ⟨r', hr', ns, hns, hiff⟩ := parentLines_spec h hq ((hm t).1 ht)
      rw [hp] at hr'; cases hr'
      obtain ⟨e1, e2, e3⟩ := (hiff name k ms).1 hx
      exact ⟨t, ns, e3, hns, e1, e2⟩
    · rintro ⟨t, ns, e3, hns, e1, e2⟩
      obtain ⟨r', hr', ns', hns', hiff⟩ := parentLines_spec h hq e3.1
      rw [hns] at hns'; cases hns'
      exact ⟨r', (h2 r').2 ⟨t, (hm t).2 e3.1, hr'⟩, (hiff name k ms).2 ⟨e1, e2, e3⟩⟩
  have hhi : ∀ t ns, Contains db.nets db.ip t a → getNet db.nets db.ip t = .ok ns →
      Keeps a ns (highest a ns).2 ∧ (∀ n ∈ (highest a ns).2, n.plen ≤ (highest a ns).1) ∧
      ∃ n ∈ (highest a ns).2, n.plen = (highest a ns).1 := by
    intro t ns hc hns
    obtain ⟨ns', hns', hex⟩ := resolve h (netOf_key hc.choose_spec.choose_spec.1)
    rw [hns] at hns'; cases hns'
    obtain ⟨a1, a2, a3⟩ := highest_spec hq.2.2 (exact_wf h.wf hex)
    refine ⟨a1, a2, ?_⟩
    rcases a3 with a3 | a3
    · obtain ⟨b, s, hof, hb⟩ := hc
      obtain ⟨n, hn, hbl, _⟩ := hex.2 b s hof
      have hk := (keeps_mem a1 n).2 ⟨hn, fun v x hx => (Props.mem_of_block hbl).2 (hb v x hx)⟩
      exact ⟨n, hk, by have := a2 n hk; omega⟩
    · exact a3
  refine ⟨_, by unfold ipParents; rw [hl]; show (each (parentLines db q) l >>= _) = _; rw [h1]; rfl, ?_, ?_⟩
  · intro name ms
    rw [List.mem_map]
    constructor
    · rintro ⟨⟨n', k, ms'⟩, hx, he⟩
      rw [mem_isort] at hx
      rw [Prod.mk.injEq] at he
      obtain ⟨rfl, rfl⟩ := he
      dsimp only
      obtain ⟨t, ns, e1, e2, _, e4⟩ := (hmem _ k _).1 hx
      exact ⟨t, ns, e1, e2, by rw [e4]; exact (hhi t ns e1.1 e2).1⟩
    · rintro ⟨t, ns, e1, e2, e3⟩
      refine ⟨(name, (highest a ns).1, ms), mem_isort.2 ((hmem _ _ _).2 ⟨t, ns, e1, e2, rfl, ?_⟩), rfl⟩
      exact keeps_unique e3 (hhi t ns e1.1 e2).1
  · rw [List.pairwise_map]
    have hs := isort_sorted (le := fun a b : Str × Nat × List Net => decide (b.2.1 ≤ a.2.1)) ⟨fun x y => by
      simp only [decide_eq_true_eq]; omega, fun x y z => by simp only [decide_eq_true_eq]; omega⟩ ls.flatten
    refine hs.imp_of_mem ?_
    rintro ⟨n1, k1, m1⟩ ⟨n2, k2, m2⟩ hx hy hle n hn
    obtain ⟨t, ns, e1, e2, e3, e4⟩ := (hmem _ _ _).1 (mem_isort.1 hx)
    obtain ⟨t', ns', f1, f2, f3, f4⟩ := (hmem _ _ _).1 (mem_isort.1 hy)
    obtain ⟨_, _, m, hm1, hm2⟩ := hhi t ns e1.1 e2
    obtain ⟨_, g2, _⟩ := hhi t' ns' f1.1 f2
    simp only [decide_eq_true_eq] at hle
    dsimp only at hn ⊢
    refine ⟨m, by rw [e4]; exact hm1, ?_⟩
    have := g2 n (by rw [← f4]; exact hn)
    omega

end Verif.Lemmas.CgrepL
