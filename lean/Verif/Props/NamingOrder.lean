import Verif.Lemmas.NamingOrder
import Verif.Props.Naming

/-!
Property theorems C183: the order in which the files of a definitions directory are read.
-/

namespace Verif.Props
open Verif Verif.Spec Verif.Naming Verif.PyStr

/-- C183 (partial): a definitions directory whose files each start with a definition of their own means
the same whatever the order in which its files are read: if it loads in one order it loads in every
order, every name has the same values with the same comments in the same order, and `GetNet` and
`GetService` answer every query alike. Missing: files that start with a continuation line
(`C183_refuted`), and lines that are not of the form of `IsLine`. -/
theorem C183_order_partial {svc svc' net net' : List (List Str)} (hs : svc.Perm svc') (hn : net.Perm net')
    (hf : ∀ f, f ∈ svc ∨ f ∈ net → ∃ ks, IsFile f ks ∧ StartsDef ks) {st : State}
    (h : load svc net = .ok st) :
    ∃ st', load svc' net' = .ok st' ∧
      (∀ t, st'.services.lookup t = st.services.lookup t ∧ st'.networks.lookup t = st.networks.lookup t) ∧
      (∀ t, getService st'.services t = getService st.services t) ∧
      (∀ ip t, getNet st'.networks ip t = getNet st.networks ip t) := by
  classical
  let K : List Str → List Line := fun f =>
    if hh : ∃ ks, IsFile f ks ∧ StartsDef ks then Classical.choose hh else []
  have hK : ∀ f, f ∈ svc ∨ f ∈ net → IsFile f (K f) ∧ StartsDef (K f) := by
    intro f hm
    have hh := hf f hm
    show IsFile f (if hh : ∃ ks, IsFile f ks ∧ StartsDef ks then Classical.choose hh else []) ∧
      StartsDef (if hh : ∃ ks, IsFile f ks ∧ StartsDef ks then Classical.choose hh else [])
    rw [dif_pos hh]
    exact Classical.choose_spec hh
  obtain ⟨n1, n2⟩ := load_nonempty h
  obtain ⟨s1, h1, h2, h3, h4⟩ := load_ok h
  obtain ⟨s1', a1, a2, a3, a4, _, _⟩ := parseLines_perm (ty := .services) (s := {}) (s' := {}) (o := []) (o' := []) hs
    (fun f hm => hK f (.inl hm)) (good_init _).weak (good_init _).weak rfl rfl h1 h2
  have w : Weak .networks s1 [] s1.services := ⟨(services_networks h1).1, by simp [keys], rfl⟩
  have w' : Weak .networks s1' [] s1'.services := ⟨(services_networks a1).1, by simp [keys], rfl⟩
  obtain ⟨st', b1, b2, b3, b4, b5, b6⟩ := parseLines_perm hn (fun f hm => hK f (.inr hm)) w w'
    (services_networks h1).2 (services_networks a1).2 h3 h4
  have b5 : st.services = s1.services := b5
  have b6 : st'.services = s1'.services := b6
  have p1 : st.services.Perm st'.services := by rw [b5, b6]; exact a3
  have p2 : st.networks.Perm st'.networks := b3
  have l1 : ∀ t, st'.services.lookup t = st.services.lookup t := fun t =>
    (lookup_perm p1 (by rw [b5]; exact a4) t).symm
  have l2 : ∀ t, st'.networks.lookup t = st.networks.lookup t := fun t => (lookup_perm p2 b4 t).symm
  refine ⟨st', load_of (fun e => n1 (by rw [e] at hs; exact hs.eq_nil)) (fun e => n2 (by rw [e] at hn; exact hn.eq_nil))
    a1 a2 b1 b2, fun t => ⟨l1 t, l2 t⟩, fun t => ?_, fun ip t => ?_⟩
  · unfold getService
    rw [getServiceF_lookup l1, p1.length_eq]
  · unfold getNet
    rw [expandNets_lookup l2, p2.length_eq]

/-- C183 refuted for files that start with a continuation line: `11.0.0.0/8` belongs to `A` or to `B`,
depending on the order of the files, and both orders load. -/
theorem C183_refuted : ∃ st st',
    load [["S = 80/tcp".toList]] [["A = 10.0.0.0/8".toList], ["  11.0.0.0/8".toList], ["B = 12.0.0.0/8".toList]] = .ok st ∧
    load [["S = 80/tcp".toList]] [["A = 10.0.0.0/8".toList], ["B = 12.0.0.0/8".toList], ["  11.0.0.0/8".toList]] = .ok st' ∧
    st.networks.lookup "A".toList = some ["10.0.0.0/8".toList, "11.0.0.0/8".toList] ∧
    st'.networks.lookup "A".toList = some ["10.0.0.0/8".toList] :=
  ⟨_, _, rfl, rfl, by decide +kernel, by decide +kernel⟩

/-- a file with one definition, for the examples -/
theorem exOneDef {n v : Str} (hn : Name n) (hv : Word v) (he : '=' ∉ v) (hl : ∀ x, v.getLast? = some x → isSpace x = false) :
    ∃ ks, IsFile [n ++ ([' '] ++ '=' :: (' ' :: v))] ks ∧ StartsDef ks := by
  have hv' : Vals (' ' :: v) [v] :=
    Vals.cons (sp := [' ']) (v := v) (rest := []) (by unfold Blank; decide) hv he (.inl rfl) (.nil (by intro c hc; cases hc)) |>
      (by simpa using ·)
  refine ⟨[.define n [v] []], .cons (s := n ++ ([' '] ++ '=' :: (' ' :: v)))
    ⟨[], [], (by intro c hc; cases hc), (by intro c hc; cases hc), by simp, ?_⟩ ?_ .nil, trivial⟩
  · intro x hx
    have hne : v ≠ [] := hv.1
    obtain ⟨y, ys, rfl⟩ := List.exists_cons_of_ne_nil hne
    apply hl x
    rw [← hx]
    simp [List.getLast?_append, List.getLast?_cons]
  · have := IsLine.define (n := n) (sp := [' ']) (body := ' ' :: v) (tail := []) (vs := [v]) (c := []) hn
      (by unfold Blank; decide) hv' (.inl ⟨rfl, rfl⟩)
    simpa using this

/-- the network files refer to each other, so one order meets a name before its definition -/
example : ∃ st st', load [["S = 80/tcp".toList]] [["A = B".toList], ["B = 12.0.0.0/8".toList]] = .ok st ∧
    load [["S = 80/tcp".toList]] [["B = 12.0.0.0/8".toList], ["A = B".toList]] = .ok st' ∧
    st'.networks.lookup "A".toList = some ["B".toList] := by
  have h : ∃ st, load [["S = 80/tcp".toList]] [["A = B".toList], ["B = 12.0.0.0/8".toList]] = .ok st ∧
      st.networks.lookup "A".toList = some ["B".toList] := ⟨_, rfl, by decide +kernel⟩
  obtain ⟨st, h1, h2⟩ := h
  obtain ⟨st', a, b, _⟩ := C183_order_partial (List.Perm.refl _)
    (List.Perm.swap ["B = 12.0.0.0/8".toList] ["A = B".toList] []) (by
      intro f hm
      have : f = ["S = 80/tcp".toList] ∨ f = ["A = B".toList] ∨ f = ["B = 12.0.0.0/8".toList] := by
        rcases hm with hm | hm
        · rcases List.mem_cons.1 hm with rfl | hm
          · exact .inl rfl
          · cases hm
        · rcases List.mem_cons.1 hm with rfl | hm
          · exact .inr (.inl rfl)
          · rcases List.mem_cons.1 hm with rfl | hm
            · exact .inr (.inr rfl)
            · cases hm
      rcases this with rfl | rfl | rfl
      · exact exOneDef (n := "S".toList) (v := "80/tcp".toList) ⟨by decide, by decide⟩ (by decide) (by decide) (by decide)
      · exact exOneDef (n := "A".toList) (v := "B".toList) ⟨by decide, by decide⟩ (by decide) (by decide) (by decide)
      · exact exOneDef (n := "B".toList) (v := "12.0.0.0/8".toList) ⟨by decide, by decide⟩ (by decide) (by decide) (by decide))
    h1
  exact ⟨st, st', h1, a, by rw [(b _).2]; exact h2⟩

end Verif.Props
