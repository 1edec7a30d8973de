import Verif.Spec.Descend

/-!
C173: the search for policy files of capirca/aclgen.py.
-/

namespace Verif.Props
open Verif Verif.Descend
open Verif.Spec.Descend (HasFile names Proper Through PolName)

/-! ### directories -/

/-- The directory has a directory of the name. -/
inductive SubAt : Dir → Str → Dir → Prop
  | here {n c r} : SubAt (.sub n c r) n c
  | afterFile {n r m c} : SubAt r m c → SubAt (.file n r) m c
  | afterSub {n d r m c} : SubAt r m c → SubAt (.sub n d r) m c

/-- The directory at a relative path. -/
inductive DirAt : Dir → List Str → Dir → Prop
  | refl {d} : DirAt d [] d
  | down {d n c p e} : SubAt d n c → DirAt c p e → DirAt d (n :: p) e

theorem dirAt_skip {t r : Dir} (hr : ∀ m c, SubAt r m c → SubAt t m c) {n : Str} {p : List Str} {e : Dir}
    (h : DirAt r (n :: p) e) : DirAt t (n :: p) e := by
  cases h with
  | down h1 h2 => exact .down (hr _ _ h1) h2

theorem mem_allDirs : ∀ {t : Dir} {p q : List Str} {c : Dir},
    (q, c) ∈ allDirs p t ↔ ∃ n d, q = p ++ n :: d ∧ DirAt t (n :: d) c
  | .nil, p, q, c => by
    constructor
    · intro h; cases h
    · rintro ⟨n, d, _, h⟩
      cases h with
      | down h1 _ => cases h1
  | .file m r, p, q, c => by
    rw [allDirs, mem_allDirs]
    constructor
    · rintro ⟨n, d, e, h⟩
      exact ⟨n, d, e, dirAt_skip (fun _ _ => .afterFile) h⟩
    · rintro ⟨n, d, e, h⟩
      refine ⟨n, d, e, ?_⟩
      cases h with
      | down h1 h2 =>
        cases h1 with
        | afterFile h1 => exact .down h1 h2
  | .sub m s r, p, q, c => by
    rw [allDirs, List.mem_cons, List.mem_append, mem_allDirs, mem_allDirs]
    constructor
    · rintro (h | ⟨n, d, e, h⟩ | ⟨n, d, e, h⟩)
      · injection h with h1 h2
        subst h1 h2
        exact ⟨m, [], rfl, .down .here .refl⟩
      · exact ⟨m, n :: d, by rw [e]; simp, .down .here h⟩
      · exact ⟨n, d, e, dirAt_skip (fun _ _ => .afterSub) h⟩
    · rintro ⟨n, d, e, h⟩
      cases h with
      | down h1 h2 =>
        cases h1 with
        | here =>
          cases h2 with
          | refl => left; rw [e]
          | down h3 h4 =>
            right; left
            exact ⟨_, _, by rw [e]; simp, .down h3 h4⟩
        | afterSub h1 => right; right; exact ⟨n, d, e, .down h1 h2⟩

theorem mem_polIn : ∀ {t : Dir} {p q : List Str} {c : Dir},
    (q, c) ∈ polIn p t ↔ q = p ++ ["pol".toList] ∧ SubAt t "pol".toList c
  | .nil, p, q, c => by
    constructor
    · intro h; cases h
    · rintro ⟨_, h⟩; cases h
  | .file m r, p, q, c => by
    rw [polIn, mem_polIn]
    refine and_congr_right fun _ => ⟨.afterFile, fun h => ?_⟩
    cases h; assumption
  | .sub m s r, p, q, c => by
    rw [polIn]
    split
    next h =>
      subst h
      rw [List.mem_cons, mem_polIn]
      constructor
      · rintro (h | ⟨h1, h2⟩)
        · injection h with h1 h2
          subst h1 h2
          exact ⟨rfl, .here⟩
        · exact ⟨h1, .afterSub h2⟩
      · rintro ⟨h1, h2⟩
        generalize hp : "pol".toList = pl at h2 h1 ⊢
        cases h2 with
        | here => left; rw [h1]
        | afterSub h2 => right; exact ⟨h1, h2⟩
    next h =>
      rw [mem_polIn]
      refine and_congr_right fun _ => ⟨.afterSub, fun h2 => ?_⟩
      generalize hp : "pol".toList = pl at h2 h
      cases h2 with
      | here => exact absurd rfl h
      | afterSub h2 => exact h2

theorem dirAt_snoc {t c : Dir} {p : List Str} {n : Str} :
    DirAt t (p ++ [n]) c ↔ ∃ s, DirAt t p s ∧ SubAt s n c := by
  induction p generalizing t with
  | nil =>
    constructor
    · intro h
      cases h with
      | down h1 h2 => cases h2; exact ⟨t, .refl, h1⟩
    · rintro ⟨s, h1, h2⟩
      cases h1
      exact .down h2 .refl
  | cons m p ih =>
    constructor
    · intro h
      cases h with
      | down h1 h2 =>
        obtain ⟨s, h3, h4⟩ := ih.1 h2
        exact ⟨s, .down h1 h3, h4⟩
    · rintro ⟨s, h1, h2⟩
      cases h1 with
      | down h3 h4 => exact .down h3 (ih.2 ⟨s, h4, h2⟩)

theorem mem_polDirs {base q : List Str} {root c : Dir} :
    (q, c) ∈ polDirs base root ↔ ∃ d, q = base ++ d ++ ["pol".toList] ∧ DirAt root (d ++ ["pol".toList]) c := by
  unfold polDirs
  rw [List.mem_flatMap]
  constructor
  · rintro ⟨⟨p, s⟩, hm, h⟩
    obtain ⟨h1, h2⟩ := mem_polIn.1 h
    rcases List.mem_cons.1 hm with h3 | h3
    · injection h3 with h4 h5
      refine ⟨[], by rw [h1, h4]; simp, ?_⟩
      rw [h5] at h2
      exact .down h2 .refl
    · obtain ⟨n, d, h4, h5⟩ := mem_allDirs.1 h3
      exact ⟨n :: d, by rw [h1, h4], dirAt_snoc.2 ⟨s, h5, h2⟩⟩
  · rintro ⟨d, h1, h2⟩
    obtain ⟨s, h3, h4⟩ := dirAt_snoc.1 h2
    refine ⟨(base ++ d, s), ?_, mem_polIn.2 ⟨h1, h4⟩⟩
    cases h3 with
    | refl => simp
    | down h5 h6 => exact List.mem_cons_of_mem _ (mem_allDirs.2 ⟨_, _, rfl, .down h5 h6⟩)

theorem isPol_iff (n : Str) : isPol n = true ↔ PolName n := by
  unfold isPol PolName
  rw [List.isSuffixOf_iff_suffix]
  exact ⟨fun ⟨r, h⟩ => ⟨r, h.symm⟩, fun ⟨r, h⟩ => ⟨r, h.symm⟩⟩

theorem hasFile_ne {t : Dir} {p : List Str} (h : HasFile t p) : p ≠ [] := by
  induction h <;> simp_all

theorem mem_polFiles : ∀ {c : Dir} {p q : List Str},
    q ∈ polFiles p c ↔ ∃ n, q = p ++ [n] ∧ PolName n ∧ HasFile c [n]
  | .nil, p, q => by
    constructor
    · intro h; cases h
    · rintro ⟨n, _, _, h⟩; cases h
  | .file m r, p, q => by
    rw [polFiles]
    have key : (∃ n, q = p ++ [n] ∧ PolName n ∧ HasFile (.file m r) [n]) ↔
        (q = p ++ [m] ∧ PolName m) ∨ ∃ n, q = p ++ [n] ∧ PolName n ∧ HasFile r [n] := by
      constructor
      · rintro ⟨n, h1, h2, h3⟩
        cases h3 with
        | here => exact .inl ⟨h1, h2⟩
        | afterFile h3 => exact .inr ⟨n, h1, h2, h3⟩
      · rintro (⟨h1, h2⟩ | ⟨n, h1, h2, h3⟩)
        · exact ⟨m, h1, h2, .here⟩
        · exact ⟨n, h1, h2, .afterFile h3⟩
    rw [key]
    split
    next h =>
      rw [isPol_iff] at h
      rw [List.mem_cons, mem_polFiles]
      exact or_congr_left ⟨fun e => ⟨e, h⟩, fun e => e.1⟩
    next h =>
      rw [isPol_iff] at h
      rw [mem_polFiles]
      exact ⟨.inr, fun e => e.resolve_left fun e => h e.2⟩
  | .sub m s r, p, q => by
    rw [polFiles, mem_polFiles]
    refine exists_congr fun n => and_congr_right fun _ => and_congr_right fun _ => ⟨.afterSub, fun h => ?_⟩
    generalize hl : [n] = l at h
    cases h with
    | down h =>
      injection hl with _ h2
      subst h2
      exact absurd rfl (hasFile_ne h)
    | afterSub h => exact h

theorem hasFile_sub {t c : Dir} {n : Str} {p : List Str} (h1 : SubAt t n c) (h2 : HasFile c p) : HasFile t (n :: p) := by
  induction h1 with
  | here => exact .down h2
  | afterFile _ ih => exact .afterFile (ih h2)
  | afterSub _ ih => exact .afterSub (ih h2)

theorem hasFile_split {t : Dir} {l : List Str} (h : HasFile t l) : ∀ m n p, l = m :: n :: p →
    ∃ c, SubAt t m c ∧ HasFile c (n :: p) := by
  induction h with
  | here => intro m n p e; cases e
  | afterFile _ ih =>
    intro m n p e
    obtain ⟨c, h1, h2⟩ := ih m n p e
    exact ⟨c, .afterFile h1, h2⟩
  | down h _ =>
    intro m n p e
    injection e with e1 e2
    subst e1 e2
    exact ⟨_, .here, h⟩
  | afterSub _ ih =>
    intro m n p e
    obtain ⟨c, h1, h2⟩ := ih m n p e
    exact ⟨c, .afterSub h1, h2⟩

theorem hasFile_iff {d : List Str} {n : Str} : ∀ {t : Dir}, HasFile t (d ++ [n]) ↔ ∃ c, DirAt t d c ∧ HasFile c [n] := by
  induction d with
  | nil =>
    intro t
    constructor
    · intro h; exact ⟨t, .refl, h⟩
    · rintro ⟨c, h1, h2⟩; cases h1; exact h2
  | cons m d ih =>
    intro t
    constructor
    · intro h
      cases hd : d ++ [n] with
      | nil => simp at hd
      | cons x xs =>
        obtain ⟨c, h1, h2⟩ := hasFile_split h m x xs (by rw [← hd]; rfl)
        rw [← hd] at h2
        obtain ⟨e, h3, h4⟩ := ih.1 h2
        exact ⟨e, .down h1 h3, h4⟩
    · rintro ⟨c, h1, h2⟩
      cases h1 with
      | down h3 h4 => exact hasFile_sub h3 (ih.2 ⟨c, h4, h2⟩)

/-! ### patterns -/

theorem zip_all_some : ∀ {i xs : List Str}, i.length = xs.length →
    (((i.map some).zip xs).all partMatches = true ↔ i = xs)
  | [], [], _ => by simp
  | a :: i, x :: xs, h => by
    have ih := zip_all_some (i := i) (xs := xs) (by simpa using h)
    rw [List.map_cons, List.zip_cons_cons, List.all_cons, Bool.and_eq_true, ih]
    simp [partMatches]

theorem matchesEnd_direct {i path : List Str} : matchesEnd (i.map some ++ [some "pol".toList]) path = true ↔
    i ++ ["pol".toList] <:+ path := by
  have e : i.map some ++ [some "pol".toList] = (i ++ ["pol".toList]).map some := by simp
  unfold matchesEnd
  rw [e, Bool.and_eq_true, decide_eq_true_iff, List.length_map]
  constructor
  · rintro ⟨h1, h2⟩
    rw [zip_all_some (by rw [List.length_drop]; omega)] at h2
    rw [h2]
    exact List.drop_suffix ..
  · rintro ⟨a, rfl⟩
    refine ⟨by simp, ?_⟩
    rw [zip_all_some (by rw [List.length_drop]; simp)]
    simp

theorem zip_all_any {p : Str} : ∀ {i xs : List Str}, xs.length = i.length + 2 →
    (((i.map some ++ [none, some p]).zip xs).all partMatches = true ↔
      ∃ y, xs = i ++ [y, p])
  | [], [a, b], _ => by
    simp only [List.map_nil, List.nil_append, List.zip_cons_cons, List.all_cons, partMatches, List.zip_nil_left, List.all_nil,
      Bool.true_and, Bool.and_true, beq_iff_eq]
    exact ⟨fun h => ⟨a, by rw [h]⟩, fun ⟨y, h⟩ => by injection h with _ h; injection h with h _; exact h.symm⟩
  | c :: i, a :: xs, h => by
    have ih := zip_all_any (p := p) (i := i) (xs := xs) (by simpa using h)
    rw [List.map_cons, List.cons_append, List.zip_cons_cons, List.all_cons, Bool.and_eq_true, ih]
    simp only [partMatches, beq_iff_eq]
    constructor
    · rintro ⟨rfl, y, rfl⟩; exact ⟨y, rfl⟩
    · rintro ⟨y, h⟩
      injection h with h1 h2
      exact ⟨h1.symm, y, h2⟩

theorem matchesEnd_any {i path : List Str} : matchesEnd (i.map some ++ [none, some "pol".toList]) path = true ↔
    ∃ y, i ++ [y, "pol".toList] <:+ path := by
  unfold matchesEnd
  rw [Bool.and_eq_true, decide_eq_true_iff]
  have hl : (i.map some ++ [none, some "pol".toList]).length = i.length + 2 := by simp
  rw [hl]
  constructor
  · rintro ⟨h1, h2⟩
    rw [zip_all_any (by rw [List.length_drop]; omega)] at h2
    obtain ⟨y, h2⟩ := h2
    exact ⟨y, by rw [← h2]; exact List.drop_suffix ..⟩
  · rintro ⟨y, a, rfl⟩
    refine ⟨by simp, ?_⟩
    rw [zip_all_any (by rw [List.length_drop]; simp)]
    refine ⟨y, ?_⟩
    have : (a ++ (i ++ [y, "pol".toList])).length - (i.length + 2) = a.length := by simp
    rw [this]; simp

theorem keeps_iff {i path : List Str} : keeps path i = true ↔
    ¬ i ++ ["pol".toList] <:+ path ∧ ¬ ∃ y, i ++ [y, "pol".toList] <:+ path := by
  unfold keeps
  rw [Bool.and_eq_true, Bool.not_eq_true', Bool.not_eq_true', ← Bool.not_eq_true, ← Bool.not_eq_true, matchesEnd_direct,
    matchesEnd_any]
  exact And.comm

/-! ### C173 -/

/-- Which files are found. -/
theorem mem_descend {base path : List Str} {ign : List (List Str)} {root : Dir} :
    path ∈ descend base ign root ↔ ∃ d n, path = base ++ d ++ ["pol".toList, n] ∧ HasFile root (d ++ ["pol".toList, n]) ∧ PolName n ∧
      ∀ i ∈ ign, ¬ i ++ ["pol".toList] <:+ base ++ d ++ ["pol".toList] ∧ ¬ ∃ y, i ++ [y, "pol".toList] <:+ base ++ d ++ ["pol".toList] := by
  unfold descend
  rw [List.mem_flatMap]
  constructor
  · rintro ⟨⟨q, c⟩, h1, h2⟩
    obtain ⟨h3, h4⟩ := List.mem_filter.1 h1
    obtain ⟨d, rfl, h5⟩ := mem_polDirs.1 h3
    obtain ⟨n, h6, h7, h8⟩ := mem_polFiles.1 h2
    refine ⟨d, n, by rw [h6]; simp, ?_, h7, fun i hi => ?_⟩
    · have := hasFile_iff.2 ⟨c, h5, h8⟩
      simpa using this
    · exact keeps_iff.1 (List.all_eq_true.1 h4 i hi)
  · rintro ⟨d, n, rfl, h1, h2, h3⟩
    have h1' : HasFile root ((d ++ ["pol".toList]) ++ [n]) := by simpa using h1
    obtain ⟨c, h4, h5⟩ := hasFile_iff.1 h1'
    refine ⟨(base ++ d ++ ["pol".toList], c), List.mem_filter.2 ⟨mem_polDirs.2 ⟨d, rfl, h4⟩, ?_⟩,
      mem_polFiles.2 ⟨n, by simp, h2, h5⟩⟩
    exact List.all_eq_true.2 fun i hi => keeps_iff.2 (h3 i hi)

/-- C173, soundness: what is found is a file whose name ends with `.pol`, in a directory `pol` in or below the base directory. -/
theorem C173_only {base path : List Str} {ign : List (List Str)} {root : Dir} (h : path ∈ descend base ign root) :
    ∃ d n, path = base ++ d ++ ["pol".toList, n] ∧ HasFile root (d ++ ["pol".toList, n]) ∧ PolName n := by
  obtain ⟨d, n, h1, h2, h3, _⟩ := mem_descend.1 h
  exact ⟨d, n, h1, h2, h3⟩

/-- C173, completeness: such a file is found unless its path leads through an ignored directory. -/
theorem C173_all {base d : List Str} {n : Str} {ign : List (List Str)} {root : Dir}
    (h : HasFile root (d ++ ["pol".toList, n])) (hn : PolName n)
    (hi : ∀ i ∈ ign, ¬ Through i (base ++ d ++ ["pol".toList, n])) :
    base ++ d ++ ["pol".toList, n] ∈ descend base ign root := by
  refine mem_descend.2 ⟨d, n, rfl, h, hn, fun i him => ⟨?_, ?_⟩⟩
  · rintro ⟨a, e⟩
    refine hi i him ⟨a, ["pol".toList, n], ?_⟩
    have := congrArg (· ++ [n]) e
    simp only [List.append_assoc, List.cons_append, List.nil_append] at this ⊢
    exact this.symm
  · rintro ⟨y, a, e⟩
    refine hi i him ⟨a, [y, "pol".toList, n], ?_⟩
    have := congrArg (· ++ [n]) e
    simp only [List.append_assoc, List.cons_append, List.nil_append] at this ⊢
    exact this.symm

/-- C173, ignored directories: nothing is found in a directory `pol` of an ignored directory, or of a directory in an ignored one. Missing
from the full claim: deeper directories (see `C173_refuted_deep`). -/
theorem C173_ignored_partial {base p i b : List Str} {n : Str} {ign : List (List Str)} {root : Dir} (hi : i ∈ ign) (hb : b.length ≤ 1) :
    p ++ i ++ b ++ ["pol".toList, n] ∉ descend base ign root := by
  intro h
  obtain ⟨d, m, h1, _, _, h4⟩ := mem_descend.1 h
  obtain ⟨h5, h6⟩ := h4 i hi
  have e : p ++ i ++ b ++ ["pol".toList] = base ++ d ++ ["pol".toList] := by
    have := congrArg List.dropLast h1
    have hs : ∀ (x : List Str) (y : Str), (x ++ ["pol".toList, y]).dropLast = x ++ ["pol".toList] := by
      intro x y
      rw [show x ++ ["pol".toList, y] = (x ++ ["pol".toList]) ++ [y] by simp, List.dropLast_concat]
    rwa [hs, hs] at this
  cases b with
  | nil => exact h5 ⟨p, by rw [← e]; simp⟩
  | cons y b =>
    have : b = [] := List.length_eq_zero_iff.1 (by simpa using hb)
    subst this
    exact h6 ⟨y, p, by rw [← e]; simp⟩

/-- C173 refuted in full: policies that are deeper in an ignored directory are found. -/
theorem C173_refuted_deep : ∃ (ign : List (List Str)) (root : Dir) (path : List Str), path ∈ descend [] ign root ∧
    ∃ i ∈ ign, Through i path :=
  ⟨[["old".toList]],
    .sub "old".toList (.sub "a".toList (.sub "b".toList (.sub "pol".toList (.file "x.pol".toList .nil) .nil) .nil) .nil) .nil,
    ["old".toList, "a".toList, "b".toList, "pol".toList, "x.pol".toList], by decide,
    ["old".toList], by decide, [], ["a".toList, "b".toList, "pol".toList, "x.pol".toList], rfl⟩

/-- C173, a consequence of comparing whole paths: policies of a base directory that is itself in an ignored directory are not found. -/
theorem C173_refuted_base {p i : List Str} {ign : List (List Str)} (hi : i ∈ ign) (root : Dir) (n : Str) :
    p ++ i ++ ["pol".toList, n] ∉ descend (p ++ i) ign root := by
  have := C173_ignored_partial (base := p ++ i) (p := p) (i := i) (b := []) (n := n) (root := root) hi (by simp)
  simpa using this

/-! ### once -/

theorem sub_name {t c : Dir} {n : Str} (h : SubAt t n c) : n ∈ names t := by
  induction h with
  | here => exact List.mem_cons_self ..
  | afterFile _ ih => exact List.mem_cons_of_mem _ ih
  | afterSub _ ih => exact List.mem_cons_of_mem _ ih

theorem allDirs_head {t c : Dir} {p q : List Str} (h : (q, c) ∈ allDirs p t) : ∃ n d, q = p ++ n :: d ∧ n ∈ names t := by
  obtain ⟨n, d, h1, h2⟩ := mem_allDirs.1 h
  cases h2 with
  | down h3 _ => exact ⟨n, d, h1, sub_name h3⟩

theorem allDirs_once : ∀ {t : Dir} {p : List Str}, Proper t → ((allDirs p t).map Prod.fst).Nodup
  | .nil, _, _ => List.nodup_nil
  | .file n r, p, h => allDirs_once (t := r) h.2
  | .sub n c r, p, h => by
    obtain ⟨h1, h2, h3⟩ := h
    rw [allDirs, List.map_cons, List.map_append, List.nodup_cons, List.nodup_append]
    refine ⟨?_, allDirs_once h2, allDirs_once h3, ?_⟩
    · intro hm
      rcases List.mem_append.1 hm with hm | hm
      · obtain ⟨⟨q, s⟩, hq, e⟩ := List.mem_map.1 hm
        obtain ⟨m, d, e2, _⟩ := allDirs_head hq
        have := congrArg List.length (e.symm.trans e2)
        simp at this
      · obtain ⟨⟨q, s⟩, hq, e⟩ := List.mem_map.1 hm
        obtain ⟨m, d, e2, hm2⟩ := allDirs_head hq
        have := List.append_cancel_left (e.symm.trans e2)
        injection this with h4 _
        exact h1 (h4 ▸ hm2)
    · intro a ha b hb hab
      subst hab
      obtain ⟨⟨q, s⟩, hq, e⟩ := List.mem_map.1 ha
      obtain ⟨⟨q', s'⟩, hq', e'⟩ := List.mem_map.1 hb
      obtain ⟨m, d, e2, _⟩ := allDirs_head hq
      obtain ⟨m', d', e3, hm3⟩ := allDirs_head hq'
      have : p ++ [n] ++ m :: d = p ++ m' :: d' := by rw [← e2, ← e3]; exact e.trans e'.symm
      rw [List.append_assoc] at this
      have := List.append_cancel_left this
      injection this with h4 _
      exact h1 (h4 ▸ hm3)

theorem polIn_names {t c : Dir} {p q : List Str} (h : (q, c) ∈ polIn p t) : "pol".toList ∈ names t :=
  sub_name (mem_polIn.1 h).2

theorem polIn_once : ∀ {t : Dir} {p : List Str}, Proper t → ((polIn p t).map Prod.fst).Nodup
  | .nil, _, _ => List.nodup_nil
  | .file n r, p, h => polIn_once (t := r) h.2
  | .sub n c r, p, h => by
    rw [polIn]
    split
    next e =>
      rw [List.map_cons, List.nodup_cons]
      refine ⟨fun hm => ?_, polIn_once h.2.2⟩
      obtain ⟨⟨q, s⟩, hq, _⟩ := List.mem_map.1 hm
      exact h.1 (e ▸ polIn_names hq)
    next => exact polIn_once h.2.2

theorem proper_sub {t c : Dir} {n : Str} (h : SubAt t n c) (hp : Proper t) : Proper c := by
  induction h with
  | here => exact hp.2.1
  | afterFile _ ih => exact ih hp.2
  | afterSub _ ih => exact ih hp.2.2

theorem proper_dir {t c : Dir} {p : List Str} (h : DirAt t p c) (hp : Proper t) : Proper c := by
  induction h with
  | refl => exact hp
  | down h1 _ ih => exact ih (proper_sub h1 hp)

theorem file_name {t : Dir} {n : Str} {l : List Str} (h : HasFile t l) : l = [n] → n ∈ names t := by
  induction h with
  | here => intro e; injection e with e _; subst e; exact List.mem_cons_self ..
  | afterFile _ ih => intro e; exact List.mem_cons_of_mem _ (ih e)
  | down h _ =>
    intro e
    injection e with _ e
    exact absurd e (hasFile_ne h)
  | afterSub _ ih => intro e; exact List.mem_cons_of_mem _ (ih e)

theorem polFiles_once : ∀ {t : Dir} {p : List Str}, Proper t → (polFiles p t).Nodup
  | .nil, _, _ => List.nodup_nil
  | .file n r, p, h => by
    rw [polFiles]
    split
    next =>
      rw [List.nodup_cons]
      refine ⟨fun hm => ?_, polFiles_once h.2⟩
      obtain ⟨m, e, _, h3⟩ := mem_polFiles.1 hm
      have := List.append_cancel_left e
      injection this with e2 _
      exact h.1 (e2 ▸ file_name h3 rfl)
    next => exact polFiles_once h.2
  | .sub n c r, p, h => polFiles_once (t := r) h.2.2

theorem flatMap_once {α : Type} {f : List Str × Dir → List α} {g : α → List Str} : ∀ {xs : List (List Str × Dir)}, (xs.map Prod.fst).Nodup →
    (∀ x ∈ xs, (f x).Nodup) → (∀ x ∈ xs, ∀ y ∈ f x, g y = x.1) → (xs.flatMap f).Nodup
  | [], _, _, _ => List.nodup_nil
  | x :: xs, h1, h2, h3 => by
    rw [List.map_cons, List.nodup_cons] at h1
    rw [List.flatMap_cons, List.nodup_append]
    refine ⟨h2 x (List.mem_cons_self ..), flatMap_once h1.2 (fun y hy => h2 y (List.mem_cons_of_mem _ hy))
      (fun y hy => h3 y (List.mem_cons_of_mem _ hy)), ?_⟩
    intro a ha b hb hab
    subst hab
    obtain ⟨y, hy, hay⟩ := List.mem_flatMap.1 hb
    have e1 := h3 x (List.mem_cons_self ..) a ha
    have e2 := h3 y (List.mem_cons_of_mem _ hy) a hay
    exact h1.1 (List.mem_map.2 ⟨y, hy, by rw [← e1, ← e2]⟩)

theorem polDirs_once {base : List Str} {root : Dir} (h : Proper root) : ((polDirs base root).map Prod.fst).Nodup := by
  unfold polDirs
  have e : ∀ xs : List (List Str × Dir), (xs.flatMap fun d => polIn d.1 d.2).map Prod.fst =
      xs.flatMap fun d => (polIn d.1 d.2).map Prod.fst := by
    intro xs; rw [List.map_flatMap]
  rw [e]
  have hp : ∀ x ∈ (base, root) :: allDirs base root, Proper x.2 := by
    intro x hx
    rcases List.mem_cons.1 hx with rfl | hx
    · exact h
    · obtain ⟨n, d, _, h2⟩ := mem_allDirs.1 (show (x.1, x.2) ∈ _ from hx)
      exact proper_dir h2 h
  refine flatMap_once (g := List.dropLast) ?_ (fun x hx => polIn_once (hp x hx)) ?_
  · rw [List.map_cons, List.nodup_cons]
    refine ⟨fun hm => ?_, allDirs_once h⟩
    obtain ⟨⟨q, s⟩, hq, e⟩ := List.mem_map.1 hm
    obtain ⟨m, d, e2, _⟩ := allDirs_head hq
    have := congrArg List.length (e.symm.trans e2)
    simp at this
  · intro x _ y hy
    obtain ⟨⟨q, s⟩, hq, e⟩ := List.mem_map.1 hy
    have := (mem_polIn.1 hq).1
    rw [← e]
    simp only
    rw [this, List.dropLast_concat]

/-- C173, each file is found once. -/
theorem C173_once {base : List Str} {ign : List (List Str)} {root : Dir} (h : Proper root) : (descend base ign root).Nodup := by
  unfold descend
  refine flatMap_once (g := List.dropLast) ?_ ?_ ?_
  · exact (List.filter_sublist.map _).nodup (polDirs_once h)
  · intro x hx
    obtain ⟨d, _, h2⟩ := mem_polDirs.1 (show (x.1, x.2) ∈ _ from (List.mem_filter.1 hx).1)
    exact polFiles_once (proper_dir h2 h)
  · intro x _ y hy
    obtain ⟨n, e, _, _⟩ := mem_polFiles.1 hy
    rw [e, List.dropLast_concat]

/-- Non-vacuity for `C173_all`, `C173_only`, `C173_once`: a tree with policies here, below, in an ignored directory, and other files. -/
example :
    let root : Dir := .sub "pol".toList (.file "a.pol".toList (.file "a.txt".toList (.sub "d.pol".toList .nil .nil)))
      (.sub "corp".toList (.sub "pol".toList (.file "b.pol".toList .nil) .nil)
      (.sub "old".toList (.sub "pol".toList (.file "c.pol".toList .nil) .nil) .nil))
    Proper root ∧ descend ["policies".toList] [["old".toList]] root =
      [["policies".toList, "pol".toList, "a.pol".toList], ["policies".toList, "corp".toList, "pol".toList, "b.pol".toList]] := by
  refine ⟨by simp [Proper, names], by decide⟩

end Verif.Props
