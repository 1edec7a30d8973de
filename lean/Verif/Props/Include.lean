import Verif.Lemmas.IncludeText

/-!
Property theorems C28 and C29: include expansion of capirca/lib/policy.py.
-/

namespace Verif.Props
open Verif Verif.Spec Verif.Include Verif.PyStr

/-- C28: every file opened while expanding includes lies in or below the base directory, whatever the
outcome. The working directory is an absolute path. -/
theorem C28_reads_below {fs : Files} (hc : fs.cwd.head? = some '/') (d : Nat) (data p : Str)
    (h : p ∈ (preprocess fs d data).1) : Below fs.cwd p fs.base := preprocess_reads hc d data p h

/-- C28: `_SubDirectory` decides `Below` for all spellings of the paths. -/
theorem C28_subdirectory {cwd : Str} (hc : cwd.head? = some '/') (child parent : Str) :
    subDirectory cwd child parent = true ↔ Below cwd child parent := subDirectory_iff hc

/-- C28: an include that leads elsewhere stops the expansion with `InvalidIncludeDirectoryError`, at the
first line that cannot be expanded and before its file is opened: the files opened are those of the
lines before it. -/
theorem C28_escape {fs : Files} (hc : fs.cwd.head? = some '/') {d : Nat} {data : Str}
    {pre post out : List Str} {l p : Str} (hl : dataLines data = pre ++ l :: post)
    (hx : Expands fs d pre out) (hi : Includes fs l p) (hb : ¬ Below fs.cwd p fs.base) :
    (preprocess fs (d + 1) data).2 = .error (.raised "InvalidIncludeDirectoryError") ∧
    p ∉ (preprocess fs (d + 1) data).1 := by
  refine ⟨(preprocess_error hc _ _ _).2 ?_, fun h => hb (C28_reads_below hc _ _ _ h)⟩
  rw [hl]
  exact .escape hx hi hb

/-- C28: an include line is `#include`, white space and a file name, which may be quoted; the path is the
name joined to the base directory. -/
theorem C28_include_line (fs : Files) (l p : Str) :
    Includes fs l p ↔ ∃ name, IncludeText l name ∧ p = pathJoin fs.base name := includes_text

/-- C28: joining a name to the base directory leads where the name leads from the base directory. -/
theorem C28_join {fs : Files} (hc : fs.cwd.head? = some '/') (f : Str) :
    locate (locate [] fs.cwd) (pathJoin fs.base f) = locate (locate (locate [] fs.cwd) fs.base) f := by
  rcases Classical.em (f.head? = some '/') with hf | hf
  · have : pathJoin fs.base f = f := by unfold pathJoin; rw [hf]; rfl
    rw [this]
    generalize locate [] fs.cwd = w
    unfold locate
    rw [if_pos hf, if_pos hf]
  rw [← (locate_join (b := fs.base) hc).2, ← (locate_join (b := f) (locate_join (b := fs.base) hc).1).2]
  rcases Classical.em (fs.base.head? = some '/') with hb | hb
  · have h1 : pathJoin fs.cwd fs.base = fs.base := by unfold pathJoin; rw [hb]; rfl
    rw [h1]
    have h2 := (locate_join (b := f) hb)
    have : ∀ c, locate c (pathJoin fs.base f) = locate [] (pathJoin fs.base f) := by
      intro c; unfold locate; rw [if_pos h2.1, if_pos h2.1]
    exact this _
  · rw [(locate_join (b := f) (locate_join (b := fs.base) hc).1).2, (locate_join (b := fs.base) hc).2]
    cases hbase : fs.base with
    | nil =>
      have : pathJoin [] f = f := by
        unfold pathJoin
        split <;> rfl
      rw [this]
      have : locate (locate [] fs.cwd) [] = locate [] fs.cwd := by
        show List.foldl walkStep _ [[]] = _
        simp [walkStep]
      rw [this]
    | cons b bs =>
      rw [hbase] at hb
      unfold pathJoin
      have hf' : (f.head? == some '/') = false := by simpa using hf
      rw [hf']
      simp only [Bool.false_eq_true, if_false]
      have hb' : b ≠ '/' := by simpa using hb
      generalize locate [] fs.cwd = w
      split
      next h2 =>
        have hl : (b :: bs).getLast? = some '/' := by simpa using h2
        obtain ⟨a', ha'⟩ : ∃ a', b :: bs = a' ++ ['/'] := List.getLast?_eq_some_iff.1 hl
        have hh : (a' ++ '/' :: f).head? = some b := by
          have : (a' ++ ['/']).head? = some b := by rw [← ha']; rfl
          cases a' with
          | nil => simpa using this
          | cons x xs => simpa using this
        rw [ha', List.append_assoc, List.singleton_append]
        unfold locate
        rw [hh, if_neg (by simpa using hb'), if_neg hf,
          if_neg (by rw [← ha']; simpa using hb'), splitOn_join, List.foldl_append, splitOn_join,
          show splitOn '/' [] = [[]] from rfl, foldl_trailing]
      next h2 =>
        unfold locate
        rw [if_neg (by simpa using hb'), if_neg hf, if_neg (by simpa using hb'), splitOn_join, List.foldl_append]

/-- C28: a relative name without `..` is never refused. -/
theorem C28_plain_names {fs : Files} (hc : fs.cwd.head? = some '/') {f : Str} (hf : f.head? ≠ some '/')
    (hd : ['.', '.'] ∉ splitOn '/' f) : Below fs.cwd (pathJoin fs.base f) fs.base := by
  have grow : ∀ (cs dir : List Str), ['.', '.'] ∉ cs → dir <+: cs.foldl walkStep dir := by
    intro cs
    induction cs with
    | nil => intro dir _; exact List.prefix_refl _
    | cons c cs ih =>
      intro dir h
      rw [List.mem_cons, not_or] at h
      rw [List.foldl_cons]
      refine List.IsPrefix.trans ?_ (ih _ h.2)
      unfold walkStep
      split
      · exact List.prefix_refl _
      · rw [if_neg (fun e => h.1 e.symm)]
        exact List.prefix_append _ _
  unfold Below
  rw [C28_join hc]
  generalize locate (locate [] fs.cwd) fs.base = dir
  unfold locate
  rw [if_neg hf]
  exact grow _ _ hd

/-- C29: the lines that are expanded are the lines of the text without trailing white space. -/
theorem C29_lines (data : Str) (ls : List Str) :
    dataLines data = ls ↔ ∃ raw, LinesOf data raw ∧ All₂ Trimmed raw ls := dataLines_iff

/-- C29: expansion succeeds exactly with the text in which every include line is replaced, in place, by
the expansion of its file, all include chains being shorter than the limit. -/
theorem C29_expansion {fs : Files} (hc : fs.cwd.head? = some '/') (d : Nat) (data : Str) (out : List Str) :
    (preprocess fs (d + 1) data).2 = .ok out ↔ Expands fs d (dataLines data) out := by
  rw [preprocess_ok hc]
  constructor
  · rintro ⟨k, h, hh⟩; cases h; exact hh
  · exact fun h => ⟨d, rfl, h⟩

/-- C29: it fails exactly with the error of the first line that cannot be expanded. -/
theorem C29_failure {fs : Files} (hc : fs.cwd.head? = some '/') (d : Nat) (data : Str) (e : Err) :
    (preprocess fs d data).2 = .error e ↔ Fails fs d (dataLines data) e := preprocess_error hc d data e

/-- C29: a chain of as many includes as the limit, in particular a cycle, is never expanded. -/
theorem C29_chain {fs : Files} (hc : fs.cwd.head? = some '/') {d : Nat} {data : Str}
    (h : Chain fs d (dataLines data)) (out : List Str) : (preprocess fs d data).2 ≠ .ok out := by
  intro hh
  obtain ⟨k, rfl, hk⟩ := (preprocess_ok hc d data out).1 hh
  exact expands_noChain hk h

/-- C29: the depth error is raised only for such a chain. -/
theorem C29_depth_only {fs : Files} (hc : fs.cwd.head? = some '/')
    (hr : ∀ p, fs.read p ≠ .error (.raised "RecursionTooDeepError")) {d : Nat} {data : Str}
    (h : (preprocess fs d data).2 = .error (.raised "RecursionTooDeepError")) :
    Chain fs d (dataLines data) := preprocess_deep hc hr d data h

/-- C29: when every file reached by includes lies below the base directory and is readable, the depth
error is raised exactly if there is a chain of as many includes as the limit. -/
theorem C29_depth {fs : Files} (hc : fs.cwd.head? = some '/')
    (hr : ∀ p, fs.read p ≠ .error (.raised "RecursionTooDeepError")) {d : Nat} {data : Str}
    (hall : ∀ ms, Follows fs (dataLines data) ms → ∀ l ∈ ms, ∀ p, Includes fs l p →
      Below fs.cwd p fs.base ∧ ∃ x, fs.read p = .ok x) :
    (preprocess fs d data).2 = .error (.raised "RecursionTooDeepError") ↔ Chain fs d (dataLines data) := by
  constructor
  · exact C29_depth_only hc hr
  · intro h
    cases hp : (preprocess fs d data).2 with
    | ok out => exact absurd hp (C29_chain hc h out)
    | error e => rw [preprocess_onlyDeep hc d data e hall hp]

/-- C29: expansion is a function of the files: at a higher limit the same text comes out. -/
theorem C29_limit {fs : Files} (hc : fs.cwd.head? = some '/') {d d' : Nat} (hd : d ≤ d') {data : Str}
    {out : List Str} (h : (preprocess fs d data).2 = .ok out) : (preprocess fs d' data).2 = .ok out := by
  have mono : ∀ {n ls o}, Expands fs n ls o → ∀ {m}, n ≤ m → Expands fs m ls o := by
    intro n ls o he
    induction he with
    | nil => exact fun _ => .nil
    | plain h1 _ ih => exact fun hm => .plain h1 (ih hm)
    | incl h1 h2 h3 _ _ ih1 ih2 =>
      intro m hm
      cases m with
      | zero => omega
      | succ m => exact .incl h1 h2 h3 (ih1 (by omega)) (ih2 hm)
  obtain ⟨k, rfl, hk⟩ := (preprocess_ok hc d data out).1 h
  cases d' with
  | zero => omega
  | succ d' => exact (preprocess_ok hc _ data out).2 ⟨d', rfl, mono hk (by omega)⟩

/-! ### examples -/

/-- A tree: `a.inc` includes `sub/b.inc`, `loop.inc` includes itself, `/etc/passwd` exists. -/
def exTree : Files := ⟨"/home/user".toList, "./pol//".toList, fun p =>
  if p = "./pol//a.inc".toList then .ok "a1\n#include 'sub/../b.inc' \na2".toList
  else if p = "./pol//sub/../b.inc".toList then .ok "b1  \r\nb2".toList
  else if p = "./pol//loop.inc".toList then .ok "#include \"loop.inc\"".toList
  else if p = "/etc/passwd".toList then .ok "root".toList
  else .error (.raised "FileNotFoundError")⟩

def outText (r : Except Err (List Str)) : List String :=
  match r with
  | .ok o => o.map String.ofList
  | .error (.raised e) => [e]
  | .error _ => []

example : exTree.cwd.head? = some '/' := by decide

example : outText (preprocess exTree 5 "x\n#include a.inc\ny".toList).2 = ["x", "a1", "b1", "b2", "a2", "y"] ∧
    (preprocess exTree 5 "x\n#include a.inc\ny".toList).1.map String.ofList =
      ["./pol//a.inc", "./pol//sub/../b.inc"] := by decide +kernel

example : outText (preprocess exTree 2 "x\n#include a.inc\ny".toList).2 = ["RecursionTooDeepError"] ∧
    outText (preprocess exTree 5 "#include loop.inc".toList).2 = ["RecursionTooDeepError"] ∧
    outText (preprocess exTree 5 "#include ../../../etc/passwd".toList).2 = ["InvalidIncludeDirectoryError"] ∧
    outText (preprocess exTree 5 "#include /etc/passwd".toList).2 = ["InvalidIncludeDirectoryError"] ∧
    outText (preprocess exTree 5 "#include ../pol2/a".toList).2 = ["InvalidIncludeDirectoryError"] ∧
    outText (preprocess exTree 5 "#include none".toList).2 = ["FileNotFoundError"] := by decide +kernel

/-- The hypotheses of `C28_escape` hold for the escaping include. -/
example : Includes exTree "#include /etc/passwd".toList "/etc/passwd".toList ∧
    ¬ Below exTree.cwd "/etc/passwd".toList exTree.base := by
  refine ⟨⟨"/etc/passwd".toList, [], by decide, by decide⟩, ?_⟩
  rw [← C28_subdirectory (by decide)]
  decide

/-- The hypotheses of `C29_depth` hold for the cyclic include. -/
example : (∀ p, exTree.read p ≠ .error (.raised "RecursionTooDeepError")) ∧
    ∀ ms, Follows exTree (dataLines "#include loop.inc".toList) ms → ∀ l ∈ ms, ∀ p, Includes exTree l p →
      Below exTree.cwd p exTree.base ∧ ∃ x, exTree.read p = .ok x := by
  constructor
  · intro p
    unfold exTree
    dsimp only
    repeat (split; · simp)
    simp
  · have inv : ∀ ms, Follows exTree (dataLines "#include loop.inc".toList) ms →
        ∀ l ∈ ms, includeOf l = some "loop.inc".toList := by
      intro ms h
      induction h with
      | refl => decide
      | step _ hl hi hr ih =>
        obtain ⟨f, h1, rfl⟩ := (includeOf_iff.2 _).1 hi
        rw [ih _ hl] at h1
        cases h1
        have : exTree.read (pathJoin exTree.base "loop.inc".toList) = .ok "#include \"loop.inc\"".toList := by decide
        rw [this] at hr
        cases hr
        decide
    intro ms h l hl p hp
    obtain ⟨f, h1, rfl⟩ := (includeOf_iff.2 _).1 hp
    rw [inv ms h l hl] at h1
    cases h1
    refine ⟨?_, _, rfl⟩
    rw [← C28_subdirectory (by decide)]
    decide

end Verif.Props
