import Verif.Spec.CiscoDoc
import Verif.Lemmas.Cisco

/-!
C177: loading the configuration of a Cisco-style generator replaces the access lists of its filters.
-/

namespace Verif.Props
open Verif Verif.Policy Verif.Cisco
open Verif.Spec.CiscoDevice (Entry Mode State Typeless Typed readLine loaded family entries Same)

namespace CiscoDocL

/-- The name of an access list for the device. -/
def nm (a : Acl) : String := String.ofList a.name

theorem loaded_append (p : String) (d : State) (a b : List Out) : loaded p d (a ++ b) = loaded p (loaded p d a) b := by
  simp [loaded]

theorem loaded_cons (p : String) (d : State) (a : Out) (b : List Out) : loaded p d (a :: b) = loaded p (readLine p d a) b := rfl

/-- The lists other than one are those of before. -/
def Others (v : Ver) (n : String) (d d' : State) : Prop :=
  (∀ v' n', ¬ (v' = v ∧ n' = n) → d'.lists v' n' = d.lists v' n') ∧ d'.groups = d.groups

theorem Others.refl {v n} (d : State) : Others v n d d := ⟨fun _ _ _ => rfl, rfl⟩

theorem Others.trans {v n} {a b c : State} (h : Others v n a b) (h' : Others v n b c) : Others v n a c :=
  ⟨fun v' n' hn => (h'.1 v' n' hn).trans (h.1 v' n' hn), h'.2.trans h.2⟩

theorem others_set {v n} (d : State) (l : List Entry) (m : Mode) : Others v n d { d.setList v n l with mode := m } :=
  ⟨fun v' n' h => by show (if _ then _ else _) = _; rw [if_neg h], rfl⟩

theorem set_self {v n} (d : State) (l : List Entry) (m : Mode) : ({ d.setList v n l with mode := m } : State).lists v n = l := by
  show (if _ then _ else _) = _
  rw [if_pos ⟨rfl, rfl⟩]

/-- A list is removed and entered. -/
theorem remove_enter {p : String} {d : State} {x y : Out} {v : Ver} {n : String}
    (h1 : readLine p d x = { d.setList v n [] with mode := .none }) (h2 : ∀ d : State, readLine p d y = { d with mode := .list v n }) :
    loaded p d [x, y] = { d.setList v n [] with mode := .list v n } := by
  rw [loaded_cons, loaded_cons, h1, h2]
  rfl

theorem typeless_two {p : String} (h : Typeless p) (d : State) (n : String) :
    loaded p d [.cmd ["no", "ip", "access-list", n], .cmd ["ip", "access-list", n]] = { d.setList .v4 n [] with mode := .list .v4 n } :=
  remove_enter (if_pos h) fun _ => if_pos h

theorem typed_one {p t : String} (h : Typed p t) (d : State) (n : String) :
    loaded p d [.cmd ["ip", "access-list", t, n]] = { d with mode := .list .v4 n } := if_pos h

theorem typed_two {p t : String} (h : Typed p t) (d : State) (n : String) :
    loaded p d [.cmd ["no", "ip", "access-list", t, n], .cmd ["ip", "access-list", t, n]] = { d.setList .v4 n [] with mode := .list .v4 n } :=
  remove_enter (if_pos h) fun _ => if_pos h

/-- What a header does. -/
theorem header_effect {c : Cfg} {a : Acl} {keep : Bool} {h : List (List String)}
    (e : headerCmds c a.name a.kind keep = .ok h) (d : State) :
    let d' := loaded c.platform d (h.map .cmd)
    Others (family a) (nm a) d d' ∧
    (keep = false → d'.lists (family a) (nm a) = []) ∧
    ((a.kind = .standard ∧ numeric a.name = true ∧ c.platform ≠ "ciscoxr" ∧ d'.lists (family a) (nm a) = []) ∨
      (d'.mode = .list (family a) (nm a))) := by
  have rm : ∀ (x : List Out) (v : Ver) (n : String), v = family a → n = nm a →
      loaded c.platform d x = { d.setList v n [] with mode := .list v n } →
      let d' := loaded c.platform d x
      Others (family a) (nm a) d d' ∧ (keep = false → d'.lists (family a) (nm a) = []) ∧
      ((a.kind = .standard ∧ numeric a.name = true ∧ c.platform ≠ "ciscoxr" ∧ d'.lists (family a) (nm a) = []) ∨
        (d'.mode = .list (family a) (nm a))) := by
    rintro x v n rfl rfl ex
    rw [ex]
    exact ⟨others_set d [] _, fun _ => set_self d [] _, .inr rfl⟩
  have num : ∀ (x : List Out), a.kind = .standard → numeric a.name = true → c.platform ≠ "ciscoxr" →
      loaded c.platform d x = { d.setList .v4 (nm a) [] with mode := .none } →
      let d' := loaded c.platform d x
      Others (family a) (nm a) d d' ∧ (keep = false → d'.lists (family a) (nm a) = []) ∧
      ((a.kind = .standard ∧ numeric a.name = true ∧ c.platform ≠ "ciscoxr" ∧ d'.lists (family a) (nm a) = []) ∨
        (d'.mode = .list (family a) (nm a))) := by
    intro x hk hn hp ex
    have hf : family a = .v4 := by simp [family, hk]
    rw [ex, hf]
    exact ⟨others_set d [] _, fun _ => set_self d [] _, .inl ⟨hk, hn, hp, set_self d [] _⟩⟩
  have f6 : a.kind = .inet6 ∨ a.kind = .objectGroup6 → .v6 = family a := fun h => by simp [family, h]
  have f4 : ¬ (a.kind = .inet6 ∨ a.kind = .objectGroup6) → .v4 = family a := fun h => by simp [family, h]
  unfold headerCmds at e
  simp only at e
  split at e
  next hxr =>
    split at e
    next hk => cases e; exact rm _ .v6 _ (f6 hk) rfl rfl
    next hk => cases e; exact rm _ .v4 _ (f4 hk) rfl (remove_enter (if_pos hxr) fun _ => if_pos hxr)
  next hxr =>
  split at e
  next hnx =>
    split at e
    next hk => cases e; exact rm _ .v4 _ (f4 (by rcases hk with hk | hk <;> simp [hk])) rfl (typeless_two (.inl hnx) d _)
    next =>
      split at e
      next hk => cases e; exact rm _ .v6 _ (f6 hk) rfl rfl
      next => exact nomatch e
  next hnx =>
  split at e
  next har =>
    split at e
    next hk =>
      split at e
      next hn =>
        cases e
        refine num _ hk hn hxr ?_
        show (if c.platform = "ciscoxr" then d else _) = _
        rw [if_neg hxr]
        rfl
      next => cases e; exact rm _ .v4 _ (f4 (by simp [hk])) rfl (typed_two ⟨hxr, hnx, .inl rfl⟩ d _)
    next =>
      split at e
      next hk => cases e; exact rm _ .v4 _ (f4 (by rcases hk with hk | hk <;> simp [hk])) rfl (typeless_two (.inr har) d _)
      next =>
        split at e
        next hk => cases e; exact rm _ .v6 _ (f6 (.inl hk)) rfl rfl
        next => exact nomatch e
  next har =>
  split at e
  next hk =>
    cases e
    refine num _ hk.1 hk.2 hxr ?_
    show (if c.platform = "ciscoxr" then d else _) = _
    rw [if_neg hxr]
    rfl
  next =>
    have keepCase : ∀ (x : List Out) (v : Ver) (n : String), keep = true → v = family a → n = nm a →
        loaded c.platform d x = { d with mode := .list v n } →
        let d' := loaded c.platform d x
        Others (family a) (nm a) d d' ∧ (keep = false → d'.lists (family a) (nm a) = []) ∧
        ((a.kind = .standard ∧ numeric a.name = true ∧ c.platform ≠ "ciscoxr" ∧ d'.lists (family a) (nm a) = []) ∨
          (d'.mode = .list (family a) (nm a))) := by
      rintro x v n hk rfl rfl ex
      rw [ex]
      exact ⟨⟨fun _ _ _ => rfl, rfl⟩, fun h => absurd (hk.symm.trans h) (by decide), .inr rfl⟩
    generalize hk : a.kind = k at e
    have hk' : ∀ v, v = family a → v = (if k = .inet6 ∨ k = .objectGroup6 then .v6 else .v4) := by
      rintro v rfl; rw [← hk]; rfl
    rw [hk] at f4 f6 rm num keepCase
    cases k <;> cases keep <;> simp only [filterCmd, Except.map] at e <;> first
      | (cases e; done)
      | (cases e; exact rm _ .v4 _ (f4 (by decide)) rfl (typed_two ⟨hxr, hnx, .inl rfl⟩ d _))
      | (cases e; exact rm _ .v4 _ (f4 (by decide)) rfl (typed_two ⟨hxr, hnx, .inr ⟨rfl, har⟩⟩ d _))
      | (cases e; exact keepCase _ .v4 _ rfl (f4 (by decide)) rfl (typed_one ⟨hxr, hnx, .inl rfl⟩ d _))
      | (cases e; exact keepCase _ .v4 _ rfl (f4 (by decide)) rfl (typed_one ⟨hxr, hnx, .inr ⟨rfl, har⟩⟩ d _))
      | (cases e; exact rm _ .v6 _ (f6 (by decide)) rfl rfl)
      | (cases e; exact keepCase _ .v6 _ rfl (f6 (by decide)) rfl rfl)

/-- What a rendered access list has. -/
structure Fine (a : Acl) : Prop where
  noGroup : a.kind = .standard → a.groupLines = []
  pre : a.kind = .standard → numeric a.name = true → ∀ toks, .ace toks ∈ a.lines →
    ∃ r, toks = .w "access-list" :: .w (nm a) :: r

theorem subs_effect (p : String) (f : α → Out) (g : α → Entry) (v : Ver) (n : String)
    (hf : ∀ (d : State) x, d.mode = .list v n → readLine p d (f x) = d.setList v n (d.lists v n ++ [g x])) :
    ∀ (ls : List α) (d : State), d.mode = .list v n →
      Others v n d (loaded p d (ls.map f)) ∧ (loaded p d (ls.map f)).mode = .list v n ∧
      (loaded p d (ls.map f)).lists v n = d.lists v n ++ ls.map g
  | [], d, h => ⟨.refl d, h, by simp [loaded]⟩
  | x :: xs, d, h => by
    rw [List.map_cons, loaded_cons, hf d x h]
    obtain ⟨i1, i2, i3⟩ := subs_effect p f g v n hf xs (d.setList v n (d.lists v n ++ [g x])) h
    refine ⟨(others_set (v := v) (n := n) d _ d.mode).trans i1, i2, ?_⟩
    rw [i3]
    have := set_self (v := v) (n := n) d (d.lists v n ++ [g x]) d.mode
    rw [show (d.setList v n (d.lists v n ++ [g x])).lists v n = d.lists v n ++ [g x] from this]
    simp

theorem tops_effect {p : String} (hp : p ≠ "ciscoxr") (n : String) : ∀ (ls : List Line),
    (∀ l ∈ ls, ∃ r, l = .ace (.w "access-list" :: .w n :: r)) → ∀ d : State,
      Others .v4 n d (loaded p d (ls.map .top)) ∧
      (loaded p d (ls.map .top)).lists .v4 n = d.lists .v4 n ++ ls.map .inl
  | [], _, d => ⟨.refl d, by simp [loaded]⟩
  | l :: ls, h, d => by
    obtain ⟨r, rfl⟩ := h l (by simp)
    have hr : readLine p d (.top (.ace (.w "access-list" :: .w n :: r))) =
        { d.setList .v4 n (d.lists .v4 n ++ [.inl (.ace (.w "access-list" :: .w n :: r))]) with mode := .none } := by
      show (if p = "ciscoxr" then d else _) = _
      rw [if_neg hp]
    rw [List.map_cons, loaded_cons, hr]
    obtain ⟨i1, i2⟩ := tops_effect hp n ls (fun x hx => h x (by simp [hx]))
      { d.setList .v4 n (d.lists .v4 n ++ [.inl (.ace (.w "access-list" :: .w n :: r))]) with mode := .none }
    refine ⟨(others_set d _ _).trans i1, ?_⟩
    rw [i2, set_self]
    simp

/-- Whatever the lines are, they change the list of the mode or the one they name. -/
theorem tops_others {p : String} (n : String) : ∀ (ls : List Line),
    (∀ toks, .ace toks ∈ ls → ∃ r, toks = .w "access-list" :: .w n :: r) → ∀ d : State,
      Others .v4 n d (loaded p d (ls.map .top))
  | [], _, d => .refl d
  | l :: ls, h, d => by
    rw [List.map_cons, loaded_cons]
    refine Others.trans ?_ (tops_others n ls (fun t ht => h t (by simp [ht])) _)
    cases l with
    | raw s => exact .refl d
    | ace toks =>
      obtain ⟨r, rfl⟩ := h toks (by simp)
      show Others .v4 n d (if p = "ciscoxr" then d else _)
      split
      · exact .refl d
      · exact others_set d _ _

theorem list_effect {c : Cfg} {a : Acl} {keep : Bool} {ls : List Out} (hf : Fine a)
    (e : listLines c a keep = .ok ls) (d : State) :
    Others (family a) (nm a) d (loaded c.platform d ls) ∧
    (keep = false → (c.platform = "ciscoxr" → a.kind = .standard → numeric a.name = false) →
      (a.kind = .standard → numeric a.name = true → ∀ l ∈ a.lines, ∃ toks, l = .ace toks) →
      (loaded c.platform d ls).lists (family a) (nm a) = entries a) := by
  unfold listLines at e
  obtain ⟨h, eh, e⟩ := bind_ok e
  cases e
  obtain ⟨h1, h2, h3⟩ := header_effect eh d
  have hexit : ∀ x : State, Others (family a) (nm a) x (loaded c.platform x (if keep = true then [] else [.cmd ["exit"]])) ∧
      (loaded c.platform x (if keep = true then [] else [.cmd ["exit"]])).lists = x.lists := by
    intro x
    cases keep with
    | true => exact ⟨.refl x, rfl⟩
    | false => exact ⟨⟨fun _ _ _ => rfl, rfl⟩, rfl⟩
  rw [loaded_append, loaded_append]
  generalize hd1 : loaded c.platform d (h.map .cmd) = d1 at h1 h2 h3
  have hx := hexit (loaded c.platform d1 (entryLines a))
  suffices hs : Others (family a) (nm a) d1 (loaded c.platform d1 (entryLines a)) ∧
      (keep = false → (c.platform = "ciscoxr" → a.kind = .standard → numeric a.name = false) →
      (a.kind = .standard → numeric a.name = true → ∀ l ∈ a.lines, ∃ toks, l = .ace toks) →
      (loaded c.platform d1 (entryLines a)).lists (family a) (nm a) = entries a) by
    refine ⟨h1.trans (hs.1.trans hx.1), fun hk hxr hv => ?_⟩
    rw [hx.2]
    exact hs.2 hk hxr hv
  by_cases hn : a.kind = .standard ∧ numeric a.name = true
  · have he : entryLines a = a.lines.map .top := by
      unfold entryLines
      rw [hf.noGroup hn.1]
      simp [hn.1, hn.2]
    have hfam : family a = .v4 := by simp [family, hn.1]
    rw [he, hfam]
    refine ⟨tops_others (nm a) a.lines (hf.pre hn.1 hn.2) d1, fun hk hxr hv => ?_⟩
    have hp : c.platform ≠ "ciscoxr" := fun h => absurd (hn.2.symm.trans (hxr h hn.1)) (by decide)
    rw [(tops_effect hp (nm a) a.lines (fun l hl => by
      obtain ⟨toks, rfl⟩ := hv hn.1 hn.2 l hl
      obtain ⟨r, rfl⟩ := hf.pre hn.1 hn.2 toks hl
      exact ⟨r, rfl⟩) d1).2, ← hfam, h2 hk]
    unfold entries
    rw [hf.noGroup hn.1]
    simp
  · have he : entryLines a = a.lines.map .sub ++ a.groupLines.map .subGroup := by
      unfold entryLines
      simp [hn]
    have hm : d1.mode = .list (family a) (nm a) := by
      rcases h3 with ⟨x, y, _⟩ | h3
      · exact absurd ⟨x, y⟩ hn
      · exact h3
    rw [he, loaded_append]
    obtain ⟨i1, i2, i3⟩ := subs_effect c.platform .sub Sum.inl (family a) (nm a)
      (fun d x h => by
        show (match d.mode with | .list v n => d.setList v n (d.lists v n ++ [Sum.inl x]) | _ => d) = _
        rw [h]) a.lines d1 hm
    obtain ⟨j1, j2, j3⟩ := subs_effect c.platform .subGroup Sum.inr (family a) (nm a)
      (fun d x h => by
        show (match d.mode with | .list v n => d.setList v n (d.lists v n ++ [Sum.inr x]) | _ => d) = _
        rw [h]) a.groupLines _ i2
    refine ⟨i1.trans j1, fun hk _ _ => ?_⟩
    rw [j3, i3, h2 hk]
    rfl

/-! ### the whole configuration -/

theorem addLists_ok {c : Cfg} : ∀ {ps : List (Acl × Bool)} {t out : List Out}, addLists c t ps = .ok out →
    ∃ ls, listM (fun p : Acl × Bool => listLines c p.1 p.2) ps = .ok ls ∧
      out = (ps.reverse.flatMap fun p => Cisco.groupLines p.1) ++ (t ++ ls.flatten)
  | [], t, out, h => by cases h; exact ⟨[], rfl, by simp⟩
  | p :: ps, t, out, h => by
    rw [addLists] at h
    obtain ⟨t', h1, h⟩ := bind_ok h
    unfold addList at h1
    obtain ⟨l, h2, h1⟩ := bind_ok h1
    cases h1
    obtain ⟨ls, h3, h4⟩ := addLists_ok h
    refine ⟨l :: ls, by rw [listM, h2, h3]; rfl, ?_⟩
    rw [h4]
    simp

theorem members_effect (p : String) (v : Ver) (n : String) : ∀ (ms : List (Nat × Nat)) (d : State), d.mode = .group v n →
    let d' := loaded p d (ms.map fun m => .member m.1 m.2)
    d'.lists = d.lists ∧ d'.mode = .group v n ∧
    ∀ v' n', d'.groups v' n' = d.groups v' n' ++ (if v' = v ∧ n' = n then ms else [])
  | [], d, h => ⟨rfl, h, fun v' n' => by show d.groups v' n' = _; split <;> simp⟩
  | m :: ms, d, h => by
    have hr : readLine p d (.member m.1 m.2) =
        { d with groups := fun v' n' => if v' = v ∧ n' = n then d.groups v n ++ [m] else d.groups v' n' } := by
      show (match d.mode with
        | .group v n => { d with groups := fun v' n' => if v' = v ∧ n' = n then d.groups v n ++ [(m.1, m.2)] else d.groups v' n' }
        | _ => d) = _
      rw [h]
    rw [List.map_cons, loaded_cons, hr]
    obtain ⟨i1, i2, i3⟩ := members_effect p v n ms
      { d with groups := fun v' n' => if v' = v ∧ n' = n then d.groups v n ++ [m] else d.groups v' n' } h
    refine ⟨i1, i2, fun v' n' => ?_⟩
    rw [i3]
    show (if _ then _ else _) ++ _ = _
    split
    next e => obtain ⟨rfl, rfl⟩ := e; simp
    next => rfl

theorem group_effect (p : String) (g : NetGroup) (d : State) :
    let d' := loaded p d (.cmd ["object-group", "network", afWord g.af, g.name] ::
      (g.nets.map fun n => .member n.addr n.plen) ++ [.cmd ["exit"]])
    d'.lists = d.lists ∧
    ∀ v n, d'.groups v n = d.groups v n ++ (if v = g.af ∧ n = g.name then g.nets.map fun n => (n.addr, n.plen) else []) := by
  rw [List.cons_append, loaded_cons, loaded_append]
  have hr : readLine p d (.cmd ["object-group", "network", afWord g.af, g.name]) = { d with mode := .group g.af g.name } := by
    cases g.af <;> rfl
  rw [hr]
  have := members_effect p g.af g.name (g.nets.map fun n => (n.addr, n.plen)) { d with mode := .group g.af g.name } rfl
  rw [List.map_map] at this
  exact ⟨this.1, this.2.2⟩

theorem groups_effect (p : String) : ∀ (gs : List NetGroup) (d : State),
    let d' := loaded p d (gs.flatMap fun g => .cmd ["object-group", "network", afWord g.af, g.name] ::
      (g.nets.map fun n => .member n.addr n.plen) ++ [.cmd ["exit"]])
    d'.lists = d.lists ∧ ∀ v n x, x ∈ d'.groups v n ↔ x ∈ d.groups v n ∨
      ∃ g ∈ gs, g.af = v ∧ g.name = n ∧ ∃ m ∈ g.nets, x = (m.addr, m.plen)
  | [], d => ⟨rfl, fun v n x => by simp [loaded]⟩
  | g :: gs, d => by
    rw [List.flatMap_cons, loaded_append]
    obtain ⟨h1, h2⟩ := group_effect p g d
    obtain ⟨i1, i2⟩ := groups_effect p gs (loaded p d (.cmd ["object-group", "network", afWord g.af, g.name] ::
      (g.nets.map fun n => .member n.addr n.plen) ++ [.cmd ["exit"]]))
    refine ⟨i1.trans h1, fun v n x => ?_⟩
    rw [i2, h2, List.mem_append, or_assoc]
    refine or_congr Iff.rfl ?_
    constructor
    · rintro (h | ⟨g', hg, h⟩)
      · split at h
        next e =>
          obtain ⟨m, hm, rfl⟩ := List.mem_map.1 h
          exact ⟨g, by simp, e.1.symm, e.2.symm, m, hm, rfl⟩
        next => exact nomatch h
      · exact ⟨g', by simp [hg], h⟩
    · rintro ⟨g', hg, h3, h4, m, hm, rfl⟩
      rcases List.mem_cons.1 hg with rfl | hg
      · left
        rw [if_pos ⟨h3.symm, h4.symm⟩]
        exact List.mem_map.2 ⟨m, hm, rfl⟩
      · exact .inr ⟨g', hg, h3, h4, m, hm, rfl⟩

theorem allGroups (p : String) (ps : List (Acl × Bool)) (d : State) :
    let d' := loaded p d (ps.flatMap fun q => Cisco.groupLines q.1)
    d'.lists = d.lists ∧ ∀ v n x, x ∈ d'.groups v n ↔ x ∈ d.groups v n ∨
      ∃ q ∈ ps, ∃ g ∈ q.1.groups, g.af = v ∧ g.name = n ∧ ∃ m ∈ g.nets, x = (m.addr, m.plen) := by
  have e : (ps.flatMap fun q => Cisco.groupLines q.1) = (ps.flatMap fun q => q.1.groups).flatMap fun g =>
      .cmd ["object-group", "network", afWord g.af, g.name] :: (g.nets.map fun n => .member n.addr n.plen) ++ [.cmd ["exit"]] := by
    rw [List.flatMap_assoc]
    rfl
  rw [e]
  obtain ⟨h1, h2⟩ := groups_effect p (ps.flatMap fun q => q.1.groups) d
  refine ⟨h1, fun v n x => ?_⟩
  rw [h2]
  refine or_congr Iff.rfl ?_
  constructor
  · rintro ⟨g, hg, h⟩
    obtain ⟨q, hq, hg⟩ := List.mem_flatMap.1 hg
    exact ⟨q, hq, g, hg, h⟩
  · rintro ⟨q, hq, g, hg, h⟩
    exact ⟨g, List.mem_flatMap.2 ⟨q, hq, hg⟩, h⟩

theorem same_iff {a b : Acl} : Same a b ↔ family b = family a ∧ nm b = nm a := by
  unfold Same nm
  constructor
  · rintro ⟨h1, h2⟩; exact ⟨h1.symm, by rw [h2]⟩
  · rintro ⟨h1, h2⟩
    exact ⟨h1.symm, by have := congrArg String.toList h2; simpa using this.symm⟩

theorem lists_run {c : Cfg} : ∀ {ps : List (Acl × Bool)} {ls : List (List Out)}, (∀ p ∈ ps, Fine p.1) →
    listM (fun p : Acl × Bool => listLines c p.1 p.2) ps = .ok ls → ∀ (d : State),
    (loaded c.platform d ls.flatten).groups = d.groups ∧
    ∀ v n, (∀ p ∈ ps, ¬ (family p.1 = v ∧ nm p.1 = n)) → (loaded c.platform d ls.flatten).lists v n = d.lists v n
  | [], ls, _, h, d => by cases h; exact ⟨rfl, fun _ _ _ => rfl⟩
  | p :: ps, ls, hf, h, d => by
    rw [listM] at h
    obtain ⟨l, h1, h⟩ := bind_ok h
    obtain ⟨ls', h2, h⟩ := bind_ok h
    cases h
    have hl := (list_effect (hf p (by simp)) h1 d).1
    have ih := lists_run (fun q hq => hf q (by simp [hq])) h2 (loaded c.platform d l)
    rw [List.flatten_cons, loaded_append]
    refine ⟨ih.1.trans hl.2, fun v n hn => ?_⟩
    rw [ih.2 v n fun q hq => hn q (by simp [hq]), hl.1 v n fun h => hn p (by simp) ⟨h.1.symm, h.2.symm⟩]

theorem fine_renderList {c : Cfg} {name : Str} {k : Kind} {dsmo : Bool} {ts : List RTerm} {a : Acl}
    (h : renderList c name k dsmo ts = .ok a) : Fine a := by
  unfold renderList at h
  split at h
  · exact nomatch h
  obtain ⟨kept, _, h⟩ := bind_ok h
  cases k with
  | standard =>
    obtain ⟨_, _, h⟩ := bind_ok h
    obtain ⟨ls, h2, h⟩ := bind_ok h
    cases h
    refine ⟨fun _ => rfl, fun _ hn toks ht => ?_⟩
    obtain ⟨r, _, x, hx, hm⟩ := ((concatM_ok h2).2 _).1 ht
    unfold renderStandard at hx
    split at hx
    · cases hx; exact nomatch hm
    · split at hx
      · cases hx
        obtain ⟨v, _, e⟩ := List.mem_map.1 hm
        exact nomatch e
      · split at hx
        · exact nomatch hx
        · cases hx
          obtain ⟨ad, _, e⟩ := List.mem_map.1 hm
          cases e
          have hn' : (!name.isEmpty && name.all PyStr.isDigit) = true := hn
          simp only [hn', if_true]
          exact ⟨_, rfl⟩
  | extended => obtain ⟨ls, _, h⟩ := bind_ok h; cases h; exact ⟨nofun, nofun⟩
  | inet6 => obtain ⟨ls, _, h⟩ := bind_ok h; cases h; exact ⟨nofun, nofun⟩
  | objectGroup => obtain ⟨ls, _, h⟩ := bind_ok h; cases h; exact ⟨nofun, nofun⟩
  | objectGroup6 => obtain ⟨ls, _, h⟩ := bind_ok h; cases h; exact ⟨nofun, nofun⟩
  | mixed => cases h; exact ⟨nofun, nofun⟩
  | dsmo => cases h; exact ⟨nofun, nofun⟩

theorem fine_oneList {c : Cfg} {name out : Str} {k : Kind} {dsmo : Bool} {ts : List RTerm} {a : Acl}
    (h : oneList c name out k dsmo ts = .ok a) : Fine a := by
  unfold oneList at h
  obtain ⟨_, _, h⟩ := bind_ok h
  obtain ⟨a', h2, h⟩ := bind_ok h
  obtain ⟨_, _, h⟩ := bind_ok h
  cases h
  exact fine_renderList h2

theorem fine_policies {c : Cfg} {fs : List (List String × List RTerm)} {ps : List (Acl × Bool)} (h : policies c fs = .ok ps) :
    ∀ p ∈ ps, Fine p.1 := by
  intro p hp
  obtain ⟨f, _, x, hx, hm⟩ := ((concatM_ok h).2 p).1 hp
  cases hr : renderFilter c f.1 f.2 with
  | error e => rw [hr] at hx; exact nomatch hx
  | ok as =>
    rw [hr] at hx
    cases hx
    obtain ⟨a, ha, rfl⟩ := List.mem_map.1 hm
    unfold renderFilter at hr
    split at hr
    · exact nomatch hr
    · obtain ⟨k, _, hr⟩ := bind_ok hr
      split at hr
      · obtain ⟨a1, h1, hr⟩ := bind_ok hr
        obtain ⟨a2, h2, hr⟩ := bind_ok hr
        cases hr
        rcases List.mem_cons.1 ha with rfl | ha
        · exact fine_oneList h1
        · cases List.mem_singleton.1 ha
          exact fine_oneList h2
      · obtain ⟨a1, h1, hr⟩ := bind_ok hr
        cases hr
        cases List.mem_singleton.1 ha
        exact fine_oneList h1

end CiscoDocL
open CiscoDocL

/-- **C177**, the lists of the policy: whatever a device has before, after the configuration is loaded every access list of the policy has
exactly the entries of its filter, in their order. Missing: filters with the option `configure_replace_compatible`
(`C177_refuted_keep`), lists that have the name of a later one (`C177_refuted_same`), numbered standard lists on IOS XR
(`C177_refuted_xr`) and verbatim texts in numbered lists. -/
theorem C177_lists_partial {c : Cfg} {fs : List (List String × List RTerm)} {ps : List (Acl × Bool)} {out : List Out}
    (hp : policies c fs = .ok ps) (h : document c fs = .ok out) {before after : List (Acl × Bool)} {a : Acl}
    (hs : ps = before ++ (a, false) :: after) (hl : ∀ q ∈ after, ¬ Same a q.1)
    (hx : c.platform = "ciscoxr" → a.kind = .standard → numeric a.name = false)
    (hv : a.kind = .standard → numeric a.name = true → ∀ l ∈ a.lines, ∃ toks, l = .ace toks) (d : State) :
    (loaded c.platform d out).lists (family a) (String.ofList a.name) = entries a := by
  unfold document at h
  rw [hp] at h
  obtain ⟨ls, h1, rfl⟩ := addLists_ok (show addLists c [] ps = .ok out from h)
  have hf := fine_policies hp
  rw [loaded_append, List.nil_append]
  generalize loaded c.platform d _ = d1
  subst hs
  obtain ⟨l1, l2, h2, h3, rfl⟩ : ∃ l1 l2, listM (fun p : Acl × Bool => listLines c p.1 p.2) before = .ok l1 ∧
      listM (fun p : Acl × Bool => listLines c p.1 p.2) ((a, false) :: after) = .ok l2 ∧ ls = l1 ++ l2 := by
    clear hp h hf
    induction before generalizing ls with
    | nil => exact ⟨[], ls, rfl, h1, rfl⟩
    | cons q qs ih =>
      rw [List.cons_append, listM] at h1
      obtain ⟨x, e1, h1⟩ := bind_ok h1
      obtain ⟨y, e2, h1⟩ := bind_ok h1
      cases h1
      obtain ⟨l1, l2, i1, i2, rfl⟩ := ih _ e2
      exact ⟨x :: l1, l2, by rw [listM, e1, i1]; rfl, i2, rfl⟩
  rw [listM] at h3
  obtain ⟨x, e1, h3⟩ := bind_ok h3
  obtain ⟨y, e2, h3⟩ := bind_ok h3
  cases h3
  rw [List.flatten_append, loaded_append, List.flatten_cons, loaded_append]
  show (loaded c.platform _ _).lists (family a) (nm a) = _
  rw [(lists_run (ps := after) (fun q hq => hf q (by simp [hq])) e2 _).2 (family a) (nm a) fun q hq hh => hl q hq (same_iff.2 hh)]
  exact (list_effect (hf (a, false) (by simp)) e1 _).2 rfl hx hv

/-- **C177**, other lists: no other access list of the device changes. -/
theorem C177_others {c : Cfg} {fs : List (List String × List RTerm)} {ps : List (Acl × Bool)} {out : List Out}
    (hp : policies c fs = .ok ps) (h : document c fs = .ok out) (d : State) (v : Ver) (n : String)
    (hn : ∀ p ∈ ps, ¬ (family p.1 = v ∧ String.ofList p.1.name = n)) : (loaded c.platform d out).lists v n = d.lists v n := by
  unfold document at h
  rw [hp] at h
  obtain ⟨ls, h1, rfl⟩ := addLists_ok (show addLists c [] ps = .ok out from h)
  rw [loaded_append, List.nil_append, (lists_run (fine_policies hp) h1 _).2 v n hn, (allGroups _ _ d).1]

/-- **C177**, the groups: after the configuration is loaded a group has the networks that it had before and those that the policy
prints for it. So it is right on a device without such a group. Missing: groups that exist, see `C177_refuted_group`. -/
theorem C177_groups_partial {c : Cfg} {fs : List (List String × List RTerm)} {ps : List (Acl × Bool)} {out : List Out}
    (hp : policies c fs = .ok ps) (h : document c fs = .ok out) (d : State) (v : Ver) (n : String) (x : Nat × Nat) :
    x ∈ (loaded c.platform d out).groups v n ↔ x ∈ d.groups v n ∨
      ∃ q ∈ ps, ∃ g ∈ q.1.groups, g.af = v ∧ g.name = n ∧ ∃ m ∈ g.nets, x = (m.addr, m.plen) := by
  unfold document at h
  rw [hp] at h
  obtain ⟨ls, h1, rfl⟩ := addLists_ok (show addLists c [] ps = .ok out from h)
  rw [loaded_append, List.nil_append, (lists_run (fine_policies hp) h1 _).1, (allGroups _ _ d).2]
  simp

/-! ### examples and counterexamples -/

/-- A term for one action. -/
def docTerm (name : String) (action : String) : RTerm := { term := { name := name.toList, action := [action] } }

/-- A device with a list `edge` that lets everything pass, and a group `CORP`. -/
def oldDevice : State where
  lists := fun v n => if v = .v4 ∧ n = "edge" then [.inl (.ace [.w "permit", .w "ip", .w "any", .w "any"])] else []
  groups := fun v n => if v = .v4 ∧ n = "CORP" then [(192 * 2 ^ 24, 8)] else []
  mode := .none

/-- A policy of two filters, a mixed one and a numbered standard one. -/
def docPolicy : List (List String × List RTerm) :=
  [(["edge", "mixed"], [docTerm "t" "deny"]), (["50", "standard"], [docTerm "u" "accept"])]

example : ∃ ps out, policies ios docPolicy = .ok ps ∧ document ios docPolicy = .ok out ∧ ps.length = 3 ∧
    (loaded "cisco" oldDevice out).lists .v4 "edge" = [.inl (.ace [.w "deny", .w "ip", .w "any", .w "any"])] ∧
    (loaded "cisco" oldDevice out).lists .v6 "ipv6-edge" = [.inl (.ace [.w "deny", .w "ipv6", .w "any", .w "any"])] ∧
    (loaded "cisco" oldDevice out).lists .v4 "50" = [.inl (.ace [.w "access-list", .w "50", .w "permit", .w "any"])] :=
  ⟨_, _, rfl, rfl, by decide +kernel, by decide +kernel, by decide +kernel, by decide +kernel⟩

/-- **C177** is false with the option `configure_replace_compatible`: the old entries stay, and decide first, if the configuration is not loaded
with the command that the option is meant for. -/
theorem C177_refuted_keep : ∃ out, document ios [(["edge", "extended", "configure_replace_compatible"], [docTerm "t" "deny"])] = .ok out ∧
    (loaded "cisco" oldDevice out).lists .v4 "edge" =
      [.inl (.ace [.w "permit", .w "ip", .w "any", .w "any"]), .inl (.ace [.w "deny", .w "ip", .w "any", .w "any"])] :=
  ⟨_, rfl, by decide +kernel⟩

/-- **C177** is false for two filters of one name, which no generator refuses: only the entries of the last one are left. -/
theorem C177_refuted_same : ∀ c ∈ [ios, xr, nx, eos, brocade],
    ∃ out, document c [(["edge"], [docTerm "t" "deny"]), (["edge"], [docTerm "u" "accept"])] = .ok out ∧
    ∃ p q r, p ≠ "deny" ∧ (loaded c.platform oldDevice out).lists .v4 "edge" = [.inl (.ace [.w p, .w q, .w r, .w "any"])] := by
  intro c hc
  simp only [List.mem_cons, List.not_mem_nil, or_false] at hc
  rcases hc with rfl | rfl | rfl | rfl | rfl <;> exact ⟨_, rfl, "permit", _, _, by decide, rfl⟩

/-- **C177** is false for numbered standard lists on IOS XR: the entries have a form that the device does not know, and the list is empty. -/
theorem C177_refuted_xr : ∃ out, document xr [(["50", "standard"], [docTerm "t" "deny"])] = .ok out ∧
    ∀ d : State, (loaded "ciscoxr" d out).lists .v4 "50" = [] :=
  ⟨_, rfl, fun d => by
    exact set_self d [] .none⟩

/-- **C177** is false for groups: the networks that a group has on the device stay in it, and with them the access list allows what no term
does. -/
theorem C177_refuted_group : ∃ out, document ios [(["edge", "object-group"], [{
      term := { name := "t".toList, action := ["accept"], sourceAddress := [{ ver := .v4, addr := 10 * 2 ^ 24, plen := 8, parent := "CORP" }] } }])] = .ok out ∧
    (loaded "cisco" oldDevice out).groups .v4 "CORP" = [(192 * 2 ^ 24, 8), (10 * 2 ^ 24, 8)] ∧
    (loaded "cisco" oldDevice out).lists .v4 "edge" =
      [.inr (.inl [.tok (.w "permit"), .tok (.w "ip"), .netGroup "CORP", .tok (.w "any")])] :=
  ⟨_, rfl, by decide +kernel, by decide +kernel⟩

end Verif.Props
