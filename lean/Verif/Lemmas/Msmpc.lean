import Verif.Spec.Msmpc
import Verif.Lemmas.AristaTp
import Verif.Lemmas.Translate
import Verif.Lemmas.Sort
import Verif.Props.SrxApp

/-!
Lemmas about the model of junipermsmpc.py.
-/

namespace Verif.Lemmas.MsmpcL
open Verif Policy Aclgenerator Nacaddr Verif.Msmpc
open Verif.Srx (STerm)
open Verif.Juniper (minimizePrefixes mem_minimize_fst mem_minimize_snd)
open Verif.Spec.Msmpc (FamilyIs DirectionIs Split Carries Void Spared Printed Fine TypesOk Seen nets SameNet)

/-! ### headers -/

/-- Families of headers. -/
def fams : List String := ["inet", "inet6", "mixed"]

/-- Directions of headers. -/
def dirs : List String := ["ingress", "egress", ""]

theorem dir_lookup {o d : String} : directions.lookup o = some d ↔ (o, d) ∈ [("", "input-output"), ("ingress", "input"), ("egress", "output")] := by
  unfold directions
  by_cases h1 : o = ""
  · subst h1; simp; exact eq_comm
  by_cases h2 : o = "ingress"
  · subst h2; simp [List.lookup]; exact eq_comm
  by_cases h3 : o = "egress"
  · subst h3; simp [List.lookup]; exact eq_comm
  · have e1 : (o == "") = false := by simpa using h1
    have e2 : (o == "ingress") = false := by simpa using h2
    have e3 : (o == "egress") = false := by simpa using h3
    simp [List.lookup, e1, e2, e3, h1, h2, h3]

/-- The options of a header that are accepted, and what they say. -/
theorem optLoop_iff : ∀ {os : List String} {af dir : String} {r : String × String}, (af = "" ∨ af ∈ fams) →
    (optLoop af dir os = .ok r ↔ (∀ o ∈ os, o ∈ fams ∨ o ∈ dirs) ∧
      (os.filter fun o => o ∈ fams).length + (if af = "" then 0 else 1) ≤ 1 ∧
      (os.filter fun o => o ∈ dirs).length + (if dir = "" then 0 else 1) ≤ 1 ∧
      r.1 = (if af = "" then (os.find? fun o => o ∈ fams).getD "mixed" else af) ∧
      r.2 = (if dir = "" then ((os.find? fun o => o ∈ dirs).bind fun o => directions.lookup o).getD "input-output" else dir))
  | [], af, dir, r, _ => by
    unfold optLoop
    constructor
    · intro h
      cases h
      refine ⟨by simp, ?_, ?_, ?_, ?_⟩
      · simp; split <;> simp
      · simp; split <;> simp
      · simp
      · simp
    · rintro ⟨_, _, _, h1, h2⟩
      obtain ⟨a, b⟩ := r
      simp at h1 h2
      rw [h1, h2]
  | o :: os, af, dir, r, haf => by
    unfold optLoop
    have hc : ["inet", "inet6", "mixed"] = fams := rfl
    rw [hc]
    by_cases hf : o ∈ fams
    · have hd : o ∉ dirs := by
        intro h
        simp only [fams, dirs, List.mem_cons, List.not_mem_nil, or_false] at hf h
        rcases hf with rfl | rfl | rfl <;> simp at h
      have hne : o ≠ "" := by rintro rfl; exact hd (by simp [dirs])
      rw [if_pos (List.contains_iff_mem.2 hf)]
      by_cases ha : af = ""
      · subst ha
        rw [if_pos rfl, optLoop_iff (.inr hf)]
        simp only [hne, if_false, if_true, List.mem_cons, forall_eq_or_imp, hf, true_or, true_and, List.filter_cons, decide_true,
          List.length_cons, hd, decide_false, List.find?_cons]
        simp
      · rw [if_neg ha]
        simp [ha, hf, hd]
    · rw [if_neg (fun h => hf (List.contains_iff_mem.1 h))]
      by_cases hd : o ∈ dirs
      · obtain ⟨d, hl, hdn⟩ : ∃ d, directions.lookup o = some d ∧ d ≠ "" := by
          simp only [dirs, List.mem_cons, List.not_mem_nil, or_false] at hd
          rcases hd with rfl | rfl | rfl
          · exact ⟨"input", by decide, by decide⟩
          · exact ⟨"output", by decide, by decide⟩
          · exact ⟨"input-output", by decide, by decide⟩
        rw [hl]
        dsimp only
        by_cases hdir : dir = ""
        · subst hdir
          rw [if_pos rfl, optLoop_iff haf]
          simp [hf, hd, hl, hdn]
        · rw [if_neg hdir]
          simp [hf, hd, hdir]
      · have hl : directions.lookup o = none := by
          cases h : directions.lookup o with
          | none => rfl
          | some d =>
            have := dir_lookup.1 h
            simp at this
            exfalso; apply hd; unfold dirs
            rcases this with h | h | h <;> simp [h.1]
        rw [hl]
        simp [hf, hd]

theorem erase_filter {l : List String} {q : String → Bool} (h : q "noverbose" = false) :
    (l.erase "noverbose").filter q = l.filter q := by
  induction l with
  | nil => rfl
  | cons a l ih =>
    rw [List.erase_cons]
    split
    next e =>
      have e := eq_of_beq e
      subst e
      rw [List.filter_cons_of_neg (by simp [h])]
    next e => rw [List.filter_cons, List.filter_cons, ih]

theorem erase_find {l : List String} {q : String → Bool} (h : q "noverbose" = false) :
    (l.erase "noverbose").find? q = l.find? q := by
  rw [← List.head?_filter, ← List.head?_filter, erase_filter h]

theorem erase_known {rest : List String} : (∀ o ∈ rest.erase "noverbose", o ∈ fams ∨ o ∈ dirs) ↔
    (∀ o ∈ rest, o ∈ ["inet", "inet6", "mixed", "ingress", "egress", "", "noverbose"]) ∧
    (rest.filter fun o => o = "noverbose").length ≤ 1 := by
  have hk : ∀ o : String, (o ∈ fams ∨ o ∈ dirs) → o ∈ ["inet", "inet6", "mixed", "ingress", "egress", "", "noverbose"] ∧ o ≠ "noverbose" := by
    intro o h
    simp only [fams, dirs, List.mem_cons, List.not_mem_nil, or_false] at h
    rcases h with (rfl | rfl | rfl) | (rfl | rfl | rfl) <;> decide
  have hk' : ∀ o : String, o ∈ ["inet", "inet6", "mixed", "ingress", "egress", "", "noverbose"] → o ≠ "noverbose" → (o ∈ fams ∨ o ∈ dirs) := by
    intro o h hn
    simp only [List.mem_cons, List.not_mem_nil, or_false] at h
    rcases h with rfl | rfl | rfl | rfl | rfl | rfl | rfl
    iterate 6 first | (left; decide) | (right; decide)
    exact absurd rfl hn
  induction rest with
  | nil => simp
  | cons a l ih =>
    rw [List.erase_cons]
    split
    next e =>
      have e := eq_of_beq e
      subst e
      have : (l.filter fun o => o = "noverbose").length = 0 ↔ ∀ o ∈ l, o ≠ "noverbose" := by
        rw [List.length_eq_zero_iff, List.filter_eq_nil_iff]
        simp
      rw [List.filter_cons_of_pos (by simp), List.length_cons]
      constructor
      · intro h
        have : (l.filter fun o => o = "noverbose").length = 0 := this.2 fun o ho => (hk o (h o ho)).2
        refine ⟨?_, by omega⟩
        intro o ho
        rcases List.mem_cons.1 ho with rfl | ho
        · simp
        · exact (hk o (h o ho)).1
      · rintro ⟨h1, h2⟩ o ho
        exact hk' o (h1 o (List.mem_cons_of_mem _ ho)) (this.1 (by omega) o ho)
    next e =>
      have e : a ≠ "noverbose" := by simpa using e
      rw [List.filter_cons_of_neg (by simpa using e)]
      constructor
      · intro h
        obtain ⟨h1, h2⟩ := ih.1 fun o ho => h o (List.mem_cons_of_mem _ ho)
        refine ⟨?_, h2⟩
        intro o ho
        rcases List.mem_cons.1 ho with rfl | ho
        · exact (hk _ (h _ (by simp))).1
        · exact h1 o ho
      · rintro ⟨h1, h2⟩ o ho
        rcases List.mem_cons.1 ho with rfl | ho
        · exact hk' _ (h1 _ (by simp)) e
        · exact ih.2 ⟨fun o ho => h1 o (List.mem_cons_of_mem _ ho), h2⟩ o ho

/-- Headers that are accepted. -/
theorem header_iff {options : List String} {x : String × String × String} : header options = .ok x ↔
    ∃ rest, options = x.1 :: rest ∧ Fine rest ∧ x.2.1 = (rest.find? fun o => o ∈ fams).getD "mixed" ∧
      x.2.2 = ((rest.find? fun o => o ∈ dirs).bind fun o => directions.lookup o).getD "input-output" := by
  cases options with
  | nil => simp [header]
  | cons name rest =>
    have key : ∀ y, optLoop "" "" (rest.erase "noverbose") = .ok y ↔ Fine rest ∧ y.1 = (rest.find? fun o => o ∈ fams).getD "mixed" ∧
        y.2 = ((rest.find? fun o => o ∈ dirs).bind fun o => directions.lookup o).getD "input-output" := by
      intro y
      rw [optLoop_iff (.inl rfl), erase_filter (by decide), erase_filter (by decide), erase_find (by decide), erase_find (by decide),
        erase_known]
      simp only [if_true, Nat.add_zero]
      constructor
      · rintro ⟨⟨h1, h2⟩, h3, h4, h5⟩
        exact ⟨⟨h1, h3, h4, h2⟩, h5⟩
      · rintro ⟨⟨h1, h3, h4, h2⟩, h5⟩
        exact ⟨⟨h1, h2⟩, h3, h4, h5⟩
    unfold header
    constructor
    · intro h
      obtain ⟨y, hy, h⟩ := bind_ok h
      cases h
      exact ⟨rest, rfl, (key y).1 hy⟩
    · rintro ⟨rest', e, h⟩
      simp only [List.cons.injEq] at e
      obtain ⟨rfl, rfl⟩ := e
      dsimp only
      rw [(key x.2).2 h]
      rfl

/-- The type and the direction of a header. -/
theorem header_says {rest : List String} (hf : Fine rest) :
    (∀ v, FamilyIs rest v ↔ (rest.find? fun o => o ∈ fams).getD "mixed" = "mixed" ∨
      (rest.find? fun o => o ∈ fams).getD "mixed" = if v = .v4 then "inet" else "inet6") ∧
    (rest.find? fun o => o ∈ fams).getD "mixed" ∈ fams ∧
    DirectionIs rest (((rest.find? fun o => o ∈ dirs).bind fun o => directions.lookup o).getD "input-output") := by
  have mem : ∀ (q : List String) (s : String), s ∈ q → (rest.filter fun o => o ∈ q).length ≤ 1 →
      (s ∈ rest ↔ rest.find? (fun o => o ∈ q) = some s) := by
    intro q s hs hl
    rw [← List.head?_filter]
    have : s ∈ rest ↔ s ∈ rest.filter fun o => o ∈ q := by simp [List.mem_filter, hs]
    rw [this]
    generalize rest.filter (fun o => o ∈ q) = l at hl
    match l, hl with
    | [], _ => simp
    | [a], _ => simp; exact eq_comm
  have m1 := fun s hs => mem fams s hs hf.family
  have m2 := fun s hs => mem dirs s hs hf.direction
  refine ⟨?_, ?_, ?_⟩
  · intro v
    unfold FamilyIs
    rw [m1 "mixed" (by decide), m1 "inet" (by decide), m1 "inet6" (by decide), m1 _ (by cases v <;> decide)]
    cases h : rest.find? fun o => o ∈ fams with
    | none => simp
    | some s =>
      have hs : s ∈ fams := by simpa using List.find?_some h
      simp only [fams, List.mem_cons, List.not_mem_nil, or_false] at hs
      rcases hs with rfl | rfl | rfl <;> cases v <;> simp
  · cases h : rest.find? fun o => o ∈ fams with
    | none => decide
    | some s => simpa using List.find?_some h
  · cases h : rest.find? fun o => o ∈ dirs with
    | none =>
      refine .both ?_ ?_
      · rw [m2 "ingress" (by decide), h]; simp
      · rw [m2 "egress" (by decide), h]; simp
    | some s =>
      have hs : s ∈ dirs := by simpa using List.find?_some h
      simp only [dirs, List.mem_cons, List.not_mem_nil, or_false] at hs
      rcases hs with rfl | rfl | rfl
      · exact .ingress ((m2 _ (by decide)).2 h)
      · exact .egress ((m2 _ (by decide)).2 h)
      · refine .both ?_ ?_
        · rw [m2 "ingress" (by decide), h]; simp
        · rw [m2 "egress" (by decide), h]; simp

/-! ### terms -/

/-- What becomes of a term. -/
inductive Became (filter : Str) (apps : List App) (g : STerm) : Option (Bool × Kept) → Prop
  | skipped : g.reply = true ∨ "established" ∈ g.term.option ∨ "tcp-established" ∈ g.term.option ∨ g.expired = true →
      Became filter apps g none
  | kept {set : Str} {types : List (Option Nat)} : g.reply = false → "established" ∉ g.term.option → "tcp-established" ∉ g.term.option →
      g.expired = false → normalizeIcmpTypes g.term.icmpType (change g.term).protocol (icmpAf (change g.term).protocol) = .ok types →
      { entry filter (change g.term) g.timeout types with name := set } ∈ apps →
      Became filter apps g (some (g.term.option.contains "inactive", ⟨{ g with term := change g.term }, set⟩))

theorem Became.mono {filter : Str} {apps apps' : List App} {g : STerm} {o : Option (Bool × Kept)} (h : Became filter apps g o)
    (hs : ∀ a ∈ apps, a ∈ apps') : Became filter apps' g o := by
  cases h with
  | skipped h => exact .skipped h
  | kept h1 h2 h3 h4 h5 h6 => exact .kept h1 h2 h3 h4 h5 (hs _ h6)

theorem same_spec {a : App} : ∀ {l : List App} {o : Option Str}, same a l = .ok o →
    (∀ n, o = some n → { a with name := n } ∈ l) ∧ (o = none → a.name ∉ l.map App.name)
  | [], o, h => by
    cases h
    exact ⟨fun _ h => (by cases h), fun _ => by simp⟩
  | s :: ss, o, h => by
    unfold same at h
    split at h
    next e =>
      cases h
      refine ⟨?_, fun h => by cases h⟩
      intro n hn
      cases hn
      rw [← e]
      exact List.mem_cons_self
    next e =>
      split at h
      · cases h
      next hne =>
        obtain ⟨h1, h2⟩ := same_spec h
        refine ⟨fun n hn => List.mem_cons_of_mem _ (h1 n hn), fun hn => ?_⟩
        rw [List.map_cons, List.mem_cons, not_or]
        exact ⟨hne, h2 hn⟩

/-- What the loop over the terms gives. -/
structure Looped (filter : Str) (used : List Str) (apps : List App) (ts : List STerm) (x : List (Bool × Kept) × List App)
    (bs : List (STerm × Option (Bool × Kept))) : Prop where
  unique : (x.2.map App.name).Nodup
  more : ∀ a ∈ apps, a ∈ x.2
  terms : bs.map Prod.fst = ts
  kept : x.1 = bs.filterMap Prod.snd
  each : ∀ b ∈ bs, Became filter x.2 b.1 b.2
  names : ((ts.filter fun g => decide (Seen g)).map fun g => g.term.name).Nodup
  fresh : ∀ g ∈ ts, Seen g → g.term.name ∉ used

theorem loop_ok {filter : Str} : ∀ {ts : List STerm} {used : List Str} {apps : List App} {x : List (Bool × Kept) × List App},
    termsLoop filter used apps ts = .ok x → (apps.map App.name).Nodup → ∃ bs, Looped filter used apps ts x bs
  | [], used, apps, x, h, hn => by
    cases h
    exact ⟨[], hn, fun _ h => h, rfl, rfl, by simp, by simp, by simp⟩
  | g :: gs, used, apps, x, h, hn => by
    unfold termsLoop at h
    split at h
    next hr =>
      obtain ⟨bs, l⟩ := loop_ok h hn
      have hs : ¬ Seen g := fun s => by rw [s.1] at hr; cases hr
      refine ⟨(g, none) :: bs, l.unique, l.more, by simp [l.terms], by simp [l.kept], ?_, ?_, ?_⟩
      · intro b hb
        rcases List.mem_cons.1 hb with rfl | hb
        · exact .skipped (.inl hr)
        · exact l.each b hb
      · rw [List.filter_cons_of_neg (by simpa using hs)]; exact l.names
      · intro u hu su
        rcases List.mem_cons.1 hu with rfl | hu
        · exact absurd su hs
        · exact l.fresh u hu su
    next hr =>
    have hr : g.reply = false := by simpa using hr
    split at h
    next he =>
      rw [Bool.or_eq_true, List.contains_iff_mem, List.contains_iff_mem] at he
      obtain ⟨bs, l⟩ := loop_ok h hn
      have hs : ¬ Seen g := fun s => he.elim s.2.1 s.2.2
      refine ⟨(g, none) :: bs, l.unique, l.more, by simp [l.terms], by simp [l.kept], ?_, ?_, ?_⟩
      · intro b hb
        rcases List.mem_cons.1 hb with rfl | hb
        · exact .skipped (.inr (he.elim .inl fun h => .inr (.inl h)))
        · exact l.each b hb
      · rw [List.filter_cons_of_neg (by simpa using hs)]; exact l.names
      · intro u hu su
        rcases List.mem_cons.1 hu with rfl | hu
        · exact absurd su hs
        · exact l.fresh u hu su
    next he =>
    rw [Bool.or_eq_true, List.contains_iff_mem, List.contains_iff_mem, not_or] at he
    have hs : Seen g := ⟨hr, he⟩
    split at h
    · cases h
    next hu =>
    rw [List.contains_iff_mem] at hu
    have names : ∀ {apps' : List App} {y : List (Bool × Kept) × List App} {bs : List (STerm × Option (Bool × Kept))},
        Looped filter (g.term.name :: used) apps' gs y bs →
        (((g :: gs).filter fun g => decide (Seen g)).map fun g => g.term.name).Nodup ∧
        ∀ u ∈ g :: gs, Seen u → u.term.name ∉ used := by
      intro apps' y bs l
      constructor
      · rw [List.filter_cons_of_pos (by simpa using hs), List.map_cons, List.nodup_cons]
        refine ⟨fun hm => ?_, l.names⟩
        obtain ⟨u, hu, e⟩ := List.mem_map.1 hm
        obtain ⟨h1, h2⟩ := List.mem_filter.1 hu
        exact l.fresh u h1 (by simpa using h2) (by rw [e]; exact List.mem_cons_self)
      · intro u hu' su
        rcases List.mem_cons.1 hu' with rfl | hu'
        · exact hu
        · exact fun hm => l.fresh u hu' su (List.mem_cons_of_mem _ hm)
    split at h
    next hx =>
      obtain ⟨bs, l⟩ := loop_ok h hn
      refine ⟨(g, none) :: bs, l.unique, l.more, by simp [l.terms], by simp [l.kept], ?_, (names l).1, (names l).2⟩
      intro b hb
      rcases List.mem_cons.1 hb with rfl | hb
      · exact .skipped (.inr (.inr (.inr hx)))
      · exact l.each b hb
    next hx =>
      obtain ⟨types, ht, h⟩ := bind_ok h
      obtain ⟨s, hsame, h⟩ := bind_ok h
      obtain ⟨y, hy, h⟩ := bind_ok h
      cases h
      obtain ⟨h1, h2⟩ := same_spec hsame
      cases s with
      | none =>
        have hn' : ((apps ++ [entry filter (change g.term) g.timeout types]).map App.name).Nodup := by
          rw [List.map_append, List.nodup_append]
          refine ⟨hn, by simp, ?_⟩
          intro a ha b hb e
          simp only [List.map_cons, List.map_nil, List.mem_singleton] at hb
          subst hb
          exact h2 rfl (e ▸ ha)
        obtain ⟨bs, l⟩ := loop_ok hy (by simpa using hn')
        refine ⟨(g, some (g.term.option.contains "inactive", ⟨{ g with term := change g.term }, (entry filter (change g.term) g.timeout types).name⟩)) :: bs,
          l.unique, fun a ha => l.more a (List.mem_append_left _ ha), by simp [l.terms], by simp [l.kept], ?_, (names l).1, (names l).2⟩
        intro b hb
        rcases List.mem_cons.1 hb with rfl | hb
        · exact .kept hr he.1 he.2 (by simpa using hx) ht (l.more _ (List.mem_append_right _ (by simp)))
        · exact l.each b hb
      | some n =>
        obtain ⟨bs, l⟩ := loop_ok hy (by simpa using hn)
        refine ⟨(g, some (g.term.option.contains "inactive", ⟨{ g with term := change g.term }, n⟩)) :: bs,
          l.unique, fun a ha => l.more a ha, by simp [l.terms], by simp [l.kept], ?_, (names l).1, (names l).2⟩
        intro b hb
        rcases List.mem_cons.1 hb with rfl | hb
        · exact .kept hr he.1 he.2 (by simpa using hx) ht (l.more _ (h1 n rfl))
        · exact l.each b hb

theorem collect_blocks {α : Type} {γ β : Type} {f : α → Except Err (List β)} : ∀ {bs : List (γ × Option α)} {r : List β},
    collect f (bs.filterMap Prod.snd) = .ok r → ∃ cs : List (γ × List β), cs.map Prod.fst = bs.map Prod.fst ∧
      r = cs.flatMap Prod.snd ∧ ∀ c ∈ cs, ((c.1, none) ∈ bs ∧ c.2 = []) ∨ ∃ k, (c.1, some k) ∈ bs ∧ f k = .ok c.2
  | [], r, h => by
    cases h
    exact ⟨[], rfl, rfl, by simp⟩
  | (g, none) :: bs, r, h => by
    obtain ⟨cs, h1, h2, h3⟩ := collect_blocks (bs := bs) (r := r) h
    refine ⟨(g, []) :: cs, by simp [h1], by simp [h2], ?_⟩
    intro c hc
    rcases List.mem_cons.1 hc with rfl | hc
    · exact .inl ⟨by simp, rfl⟩
    · rcases h3 c hc with ⟨h, e⟩ | ⟨k, h, e⟩
      · exact .inl ⟨List.mem_cons_of_mem _ h, e⟩
      · exact .inr ⟨k, List.mem_cons_of_mem _ h, e⟩
  | (g, some k) :: bs, r, h => by
    change collect f (k :: bs.filterMap Prod.snd) = .ok r at h
    unfold collect at h
    obtain ⟨a, ha, h⟩ := bind_ok h
    obtain ⟨b, hb, h⟩ := bind_ok h
    cases h
    obtain ⟨cs, h1, h2, h3⟩ := collect_blocks hb
    refine ⟨(g, a) :: cs, by simp [h1], by simp [h2], ?_⟩
    intro c hc
    rcases List.mem_cons.1 hc with rfl | hc
    · exact .inr ⟨k, by simp, ha⟩
    · rcases h3 c hc with ⟨h, e⟩ | ⟨k, h, e⟩
      · exact .inl ⟨List.mem_cons_of_mem _ h, e⟩
      · exact .inr ⟨k, List.mem_cons_of_mem _ h, e⟩

/-! ### addresses -/

open Verif.Spec (WF Mem Den AddrMatch StrictSub)
open Verif.Spec.Msmpc (AddrHits)

/-- The length of what is printed for a network. -/
def plenOf (n : Net) : Nat := if n.ver = .v6 ∧ 0 < n.plen ∧ n.plen < 16 then 16 else n.plen

theorem mem_ofVersion {v : Ver} {l : List Net} {n : Net} : n ∈ ofVersion v l ↔ n ∈ l ∧ n.ver = v := by
  unfold ofVersion
  simp [List.mem_filter]

theorem expand_len {n : Net} {q : Pfx} (h : q ∈ expand n) : q.2.2 = plenOf n ∧ q.1 = n.ver := by
  unfold expand at h
  unfold plenOf
  split at h
  next hc =>
    obtain ⟨i, _, rfl⟩ := List.mem_map.1 h
    exact ⟨by rw [if_pos hc], hc.1.symm⟩
  next hc =>
    rw [List.mem_singleton.1 h]
    exact ⟨by rw [if_neg hc], rfl⟩

theorem expand_ne (n : Net) : expand n ≠ [] := by
  unfold expand
  split
  · have := Nat.two_pow_pos (16 - n.plen)
    intro h
    have := congrArg List.length h
    simp at this
  · simp

theorem plenOf_mono {e n : Net} (hv : e.ver = n.ver) (h : n.plen ≤ e.plen) : plenOf n ≤ plenOf e := by
  unfold plenOf
  rw [hv]
  split
  next h1 =>
    split
    · omega
    next h2 =>
      have : ¬ (0 < e.plen ∧ e.plen < 16) := fun h => h2 ⟨h1.1, h⟩
      omega
  · split <;> omega

theorem expand_covers {n : Net} (w : WF n) (v : Ver) (x : Nat) : (∃ q ∈ expand n, Spec.Flat.Covers q v x) ↔ Mem n v x := by
  unfold expand
  split
  next hc =>
    have hm : Mem n v x ↔ n.ver = v ∧ x / 2 ^ (n.ver.bits - n.plen) = n.addr / 2 ^ (n.ver.bits - n.plen) := by
      rw [Cisco.mem_iff_div w]
      constructor
      · rintro ⟨rfl, h⟩; exact ⟨rfl, h⟩
      · rintro ⟨rfl, h⟩; exact ⟨rfl, h⟩
    rw [hm]
    clear hm
    obtain ⟨hv, h0, h16⟩ := hc
    have hp : (2 : Nat) ^ (n.ver.bits - n.plen) = 2 ^ 112 * 2 ^ (16 - n.plen) := by
      rw [← Nat.pow_add, hv]
      show 2 ^ (128 - n.plen) = _
      congr 1
      omega
    have hpos : (0 : Nat) < 2 ^ 112 := Nat.two_pow_pos _
    have hpos' : (0 : Nat) < 2 ^ (16 - n.plen) := Nat.two_pow_pos _
    have ha : n.addr % (2 ^ 112 * 2 ^ (16 - n.plen)) = 0 := by
      have := w.aligned
      rw [hp] at this
      omega
    obtain ⟨a, ha⟩ : ∃ a, n.addr = 2 ^ 112 * 2 ^ (16 - n.plen) * a := ⟨_, (Nat.mul_div_cancel' (Nat.dvd_of_mod_eq_zero ha)).symm⟩
    rw [hp]
    simp only [List.mem_map, List.mem_range, Spec.Flat.Covers]
    have hd : ∀ i, (n.addr + i * 2 ^ 112) / 2 ^ 112 = 2 ^ (16 - n.plen) * a + i := by
      intro i
      rw [ha, Nat.add_mul_div_right _ _ hpos, Nat.mul_assoc, Nat.mul_div_cancel_left _ hpos]
    have hd' : n.addr / (2 ^ 112 * 2 ^ (16 - n.plen)) = a := by
      rw [ha, Nat.mul_div_cancel_left _ (Nat.mul_pos hpos hpos')]
    rw [hd', ← Nat.div_div_eq_div_mul]
    constructor
    · rintro ⟨q, ⟨i, hi, rfl⟩, h1, h2⟩
      have h2 : x / 2 ^ 112 = (n.addr + i * 2 ^ 112) / 2 ^ 112 := h2
      refine ⟨by rw [h1, hv], ?_⟩
      rw [h2, hd, Nat.mul_add_div hpos', Nat.div_eq_of_lt hi]
      omega
    · rintro ⟨h1, h2⟩
      refine ⟨_, ⟨(x / 2 ^ 112) % 2 ^ (16 - n.plen), Nat.mod_lt _ hpos', rfl⟩, by rw [← h1, hv], ?_⟩
      show x / 2 ^ 112 = (n.addr + _ * 2 ^ 112) / 2 ^ 112
      rw [hd, ← h2, Nat.div_add_mod]
  next hc => simp [Spec.Flat.covers_iff w]

/-- Whether the printed addresses of a side are for the address. -/
theorem side_hits {v : Ver} {inc exc : List Net} (hi : ∀ n ∈ inc, WF n) (he : ∀ n ∈ exc, WF n) (h0 : exc ≠ [] → inc ≠ [])
    (hn : ∀ n ∈ inc, ∀ e ∈ exc, ¬ StrictSub n e) (hg : gone v inc exc = false) (x : Nat) :
    AddrHits (side v inc exc).1 (side v inc exc).2 v x ↔ AddrMatch inc exc v x := by
  have hi' : ∀ n ∈ ofVersion v inc, WF n := fun n h => hi n (mem_ofVersion.1 h).1
  have he' : ∀ n ∈ ofVersion v exc, WF n := fun n h => he n (mem_ofVersion.1 h).1
  unfold side AddrHits
  dsimp only
  by_cases hinc : inc = []
  · have hexc : exc = [] := Classical.byContradiction fun h => h0 h hinc
    subst hinc; subst hexc
    exact iff_of_true (.inl ⟨rfl, rfl⟩) ⟨.inl rfl, by rintro ⟨_, h, _⟩; cases h⟩
  · have full : (minimizePrefixes (ofVersion v inc) (ofVersion v exc)).1 ≠ [] := by
      intro e
      have e2 : (minimizePrefixes (ofVersion v inc) (ofVersion v exc)).2 = [] := by
        rw [List.eq_nil_iff_forall_not_mem]
        intro y hy
        obtain ⟨_, n, h1, h2, _⟩ := (mem_minimize_snd hi' he').1 hy
        have := (mem_minimize_fst hi' he').2 ⟨h1, h2⟩
        rw [e] at this; cases this
      unfold gone at hg
      simp [e, e2, hinc] at hg
    constructor
    · rintro (⟨h, _⟩ | ⟨q, hq, hc, hx⟩)
      · exfalso
        obtain ⟨n, hm⟩ := List.exists_mem_of_ne_nil _ full
        obtain ⟨q, hq⟩ := List.exists_mem_of_ne_nil _ (expand_ne n)
        have : q ∈ (minimizePrefixes (ofVersion v inc) (ofVersion v exc)).1.flatMap expand := List.mem_flatMap.2 ⟨n, hm, hq⟩
        rw [h] at this; cases this
      · obtain ⟨n, hm, hq⟩ := List.mem_flatMap.1 hq
        obtain ⟨h1, h2⟩ := (mem_minimize_fst hi' he').1 hm
        have hn1 := (mem_ofVersion.1 h1).1
        have hc := (expand_covers (hi n hn1) v x).1 ⟨q, hq, hc⟩
        refine ⟨.inr ⟨n, hn1, hc⟩, ?_⟩
        rintro ⟨e, hee, hme⟩
        have hev : e ∈ ofVersion v exc := mem_ofVersion.2 ⟨hee, hme.1⟩
        rcases Nat.lt_or_ge e.plen n.plen with h | h
        · exact hn n hn1 e hee (strictSub_of_plen (hi n hn1) (he e hee) hc hme h)
        · have hs := nested_of_le (he e hee) (hi n hn1) hme hc h
          have hmm := (mem_minimize_snd hi' he').2 ⟨hev, n, h1, h2, hs⟩
          obtain ⟨r, hr, hcr⟩ := (expand_covers (he e hee) v x).2 hme
          have := hx r (List.mem_flatMap.2 ⟨e, hmm, hr⟩) hcr
          rw [(expand_len hr).1, (expand_len hq).1] at this
          have := plenOf_mono (e := e) (n := n) (by rw [hme.1, hc.1]) h
          omega
    · rintro ⟨h | ⟨n, hm, hc⟩, hx⟩
      · exact absurd h hinc
      · have hnm : n ∈ (minimizePrefixes (ofVersion v inc) (ofVersion v exc)).1 :=
          (mem_minimize_fst hi' he').2 ⟨mem_ofVersion.2 ⟨hm, hc.1⟩, fun e hee hbe => hx ⟨e, (mem_ofVersion.1 hee).1,
            (mem_congr_block hbe v x).1 hc⟩⟩
        obtain ⟨q, hq, hcq⟩ := (expand_covers (hi n hm) v x).2 hc
        refine .inr ⟨q, List.mem_flatMap.2 ⟨n, hnm, hq⟩, hcq, ?_⟩
        intro e hme hce
        obtain ⟨m, hmm, hem⟩ := List.mem_flatMap.1 hme
        have hee := (mem_ofVersion.1 ((mem_minimize_snd hi' he').1 hmm).1).1
        exact absurd ⟨m, hee, (expand_covers (he m hee) v x).1 ⟨e, hem, hce⟩⟩ hx

/-- A side of which nothing is left has no address of the family. -/
theorem gone_void {v : Ver} {inc exc : List Net} (hi : ∀ n ∈ inc, WF n) (he : ∀ n ∈ exc, WF n) (hg : gone v inc exc = true) : Void v inc exc := by
  unfold gone at hg
  simp only [Bool.and_eq_true, Bool.not_eq_true', List.isEmpty_iff, List.isEmpty_eq_false_iff] at hg
  refine ⟨hg.1.2, fun n hn hv => ?_⟩
  have h1 := hg.1.1
  unfold minimizePrefixes at h1
  dsimp only at h1
  rw [List.filter_eq_nil_iff] at h1
  have := h1 n (mem_ofVersion.2 ⟨hn, hv⟩)
  simp only [Bool.not_eq_true', Bool.not_eq_false, List.any_eq_true] at this
  obtain ⟨e, hm, hq⟩ := this
  have hm := (mem_ofVersion.1 hm).1
  have hb := (eqv_iff (hi n hn) (he e hm)).1 hq
  unfold Spec.block at hb
  simp only [Prod.mk.injEq] at hb
  exact ⟨e, hm, hb⟩

theorem void_no {v : Ver} {inc exc : List Net} (h : Void v inc exc) (x : Nat) : ¬ AddrMatch inc exc v x := by
  rintro ⟨h1 | ⟨n, hn, hm⟩, h2⟩
  · exact h.1 h1
  · obtain ⟨e, he, e1, e2, e3⟩ := h.2 n hn hm.1
    refine h2 ⟨e, he, ?_⟩
    unfold Mem at hm ⊢
    rw [← e1, ← e2, ← e3]
    exact hm

theorem gone_of_void {v : Ver} {inc exc : List Net} (h : Void v inc exc) : gone v inc exc = true := by
  unfold gone
  have h1 : (minimizePrefixes (ofVersion v inc) (ofVersion v exc)).1 = [] := by
    unfold minimizePrefixes
    dsimp only
    rw [List.filter_eq_nil_iff]
    intro n hn
    obtain ⟨hn, hv⟩ := mem_ofVersion.1 hn
    obtain ⟨e, he, e1, e2, e3⟩ := h.2 n hn hv
    simp only [Bool.not_eq_true', Bool.not_eq_false, List.any_eq_true]
    exact ⟨e, mem_ofVersion.2 ⟨he, e1 ▸ hv⟩, by unfold Net.eqv Net.netmask; simp [e1, e2, e3]⟩
  have h2 : (minimizePrefixes (ofVersion v inc) (ofVersion v exc)).2 = [] := by
    have : (minimizePrefixes (ofVersion v inc) (ofVersion v exc)).2 = (ofVersion v exc).filter fun e =>
      (minimizePrefixes (ofVersion v inc) (ofVersion v exc)).1.any fun n => e.subnetOf n := rfl
    rw [this, h1]
    simp
  simp [h1, h2, h.1]

/-- Which family what is printed is of. -/
theorem side_family {v : Ver} {inc exc : List Net} {q : Pfx} (h : q ∈ (side v inc exc).1 ∨ q ∈ (side v inc exc).2) : q.1 = v := by
  unfold side at h
  rcases h with h | h
  all_goals
    obtain ⟨n, hn, hq⟩ := List.mem_flatMap.1 h
    rw [(expand_len hq).2]
    unfold minimizePrefixes at hn
    exact (mem_ofVersion.1 (List.mem_filter.1 hn).1).2

/-- What is printed for one family is not for the other. -/
theorem side_other {v w : Ver} {inc exc : List Net} (hne : inc ≠ []) (hg : gone v inc exc = false) (hw : w ≠ v) (x : Nat) :
    ¬ AddrHits (side v inc exc).1 (side v inc exc).2 w x := by
  rintro (⟨h1, h2⟩ | ⟨n, hn, hc, _⟩)
  · have ne : ∀ l : List Net, l.flatMap expand = [] → l = [] := by
      intro l h
      cases l with
      | nil => rfl
      | cons n l =>
        rw [List.flatMap_cons, List.append_eq_nil_iff] at h
        exact absurd h.1 (expand_ne n)
    unfold side at h1 h2
    unfold gone at hg
    simp [ne _ h1, ne _ h2, hne] at hg
  · exact hw (hc.1.trans (side_family (.inl hn)))

end Verif.Lemmas.MsmpcL
