import Verif.Lemmas.PolicyParse
import Verif.Lemmas.Translate

/-! Building terms from items: what `AddObject` accumulates. -/

namespace Verif
namespace PolicyText

open Spec Policy

/-- The values of a keyword, `Spec.given` with the keyword as characters. -/
def givenC (k : Str) (is : List Item) : List Val := (is.filter fun i => i.key = k).map Item.val

theorem given_eq (k : String) (is : List Item) : given k is = givenC k.toList is := rfl

theorem givenC_cons (k : Str) (i : Item) (is : List Item) :
    givenC k (i :: is) = if i.key = k then i.val :: givenC k is else givenC k is := by
  unfold givenC
  rw [List.filter_cons]
  by_cases h : i.key = k
  · rw [if_pos h, if_pos (by simpa using h)]; rfl
  · rw [if_neg h, if_neg (by simpa using h)]

/-- What an attribute holds after items. -/
def held (k : Str) (l0 : List Atom) (vs : List Val) : List Atom :=
  match how k with
  | .append => l0 ++ vs.flatMap atoms
  | .replace => match vs.getLast? with
    | none => l0
    | some v => atoms v

theorem held_nil (k : Str) (l0 : List Atom) : held k l0 [] = l0 := by
  unfold held
  cases how k <;> simp

theorem held_cons (k : Str) (l0 : List Atom) (v : Val) (vs : List Val) :
    held k l0 (v :: vs) = held k (match how k with | .append => l0 ++ atoms v | .replace => atoms v) vs := by
  unfold held
  cases how k with
  | append => simp
  | replace => cases vs with
    | nil => rfl
    | cons w vs =>
      rw [List.getLast?_cons_cons]
      cases h : (w :: vs).getLast? with
      | none => simp at h
      | some x => rfl

theorem accepts_iff (i : Item) : accepts i = .ok () ↔ Valued i := by
  rcases i with ⟨k, v⟩
  unfold Valued
  cases v with
  | text s =>
    unfold accepts
    dsimp only
    split
    · rename_i h
      simp only [Bool.and_eq_true, beq_iff_eq, Bool.not_eq_true', ← Bool.not_eq_true, List.contains_iff_mem] at h
      constructor
      · intro hh; cases hh
      · rintro ⟨h1, _⟩
        exact absurd (h1 h.1 s rfl) h.2
    · rename_i h
      have h1 : k = "action".toList → s ∈ ["accept", "count", "deny", "reject", "next",
          "reject-with-tcp-rst"].map String.toList := by
        intro hk
        apply Classical.byContradiction
        intro hn
        apply h
        simp only [Bool.and_eq_true, beq_iff_eq, Bool.not_eq_true', ← Bool.not_eq_true, List.contains_iff_mem]
        exact ⟨hk, hn⟩
      split
      · rename_i h2
        simp only [Bool.and_eq_true, beq_iff_eq, Bool.not_eq_true', ← Bool.not_eq_true, List.contains_iff_mem] at h2
        constructor
        · intro hh; cases hh
        · rintro ⟨_, h3⟩
          exact absurd (h3 h2.1 s rfl) h2.2
      · rename_i h2
        refine ⟨fun _ => ⟨fun hk s' hs => ?_, fun hk s' hs => ?_⟩, fun _ => rfl⟩
        · cases hs; exact h1 hk
        · cases hs
          apply Classical.byContradiction
          intro hn
          apply h2
          simp only [Bool.and_eq_true, beq_iff_eq, Bool.not_eq_true', ← Bool.not_eq_true, List.contains_iff_mem]
          exact ⟨hk, hn⟩
  | _ => exact ⟨fun _ => ⟨fun _ s hs => (by cases hs), fun _ s hs => (by cases hs)⟩, fun _ => rfl⟩

theorem addAll_spec (is : List Item) : ∀ (a : Attrs), (∀ i ∈ is, Valued i) →
    ∃ a', addAll a is = .ok a' ∧ ∀ k, a' k = held k (a k) (givenC k is) := by
  induction is with
  | nil => intro a _; exact ⟨a, rfl, fun k => (held_nil k _).symm⟩
  | cons i is ih =>
    intro a h
    have hi := (accepts_iff i).2 (h i (by simp))
    have h' : ∀ j ∈ is, Valued j := fun j hj => h j (by simp [hj])
    unfold addAll addObject
    rw [hi]
    dsimp only
    cases hh : how i.key with
    | append =>
      dsimp only
      rcases ih (setAttr a i.key (a i.key ++ atoms i.val)) h' with ⟨a', e, ha⟩
      refine ⟨a', e, fun k => ?_⟩
      rw [ha k, givenC_cons]
      by_cases hk : i.key = k
      · subst hk
        rw [if_pos rfl, held_cons, hh]
        simp [setAttr]
      · rw [if_neg hk]
        simp [setAttr, Ne.symm hk]
    | replace =>
      dsimp only
      rcases ih (setAttr a i.key (atoms i.val)) h' with ⟨a', e, ha⟩
      refine ⟨a', e, fun k => ?_⟩
      rw [ha k, givenC_cons]
      by_cases hk : i.key = k
      · subst hk
        rw [if_pos rfl, held_cons, hh]
        simp [setAttr]
      · rw [if_neg hk]
        simp [setAttr, Ne.symm hk]

theorem addAll_valued (is : List Item) : ∀ (a a' : Attrs), addAll a is = .ok a' → ∀ i ∈ is, Valued i := by
  induction is with
  | nil => intro a a' _ i hi; cases hi
  | cons i is ih =>
    intro a a' h
    unfold addAll at h
    cases he : addObject a i with
    | error e => rw [he] at h; cases h
    | ok b =>
      rw [he] at h
      have hv : Valued i := by
        rw [← accepts_iff]
        unfold addObject at he
        cases ha : accepts i with
        | error e => rw [ha] at he; cases he
        | ok u => rfl
      intro j hj
      rcases List.mem_cons.1 hj with rfl | hj
      · exact hv
      · exact ih _ _ h j hj

theorem strs_append (l l' : List Atom) : strs (l ++ l') = strs l ++ strs l' := by simp [strs]
theorem nats_append (l l' : List Atom) : nats (l ++ l') = nats l ++ nats l' := by simp [nats]
theorem pairs_append (l l' : List Atom) : pairs (l ++ l') = pairs l ++ pairs l' := by simp [pairs]

theorem strs_atoms (v : Val) : strs (atoms v) = (match v with | .words l => l | .text s => [s] | _ => []) := by
  cases v with
  | words l => simp only [atoms, strs, List.filterMap_map]; induction l <;> simp_all
  | nums l => simp only [atoms, strs, List.filterMap_map]; induction l <;> simp_all
  | pairs l => simp only [atoms, strs, List.filterMap_map]; induction l <;> simp_all
  | _ => rfl

theorem nats_atoms (v : Val) : nats (atoms v) = (match v with | .nums l => l | _ => []) := by
  cases v with
  | words l => simp only [atoms, nats, List.filterMap_map]; induction l <;> simp_all
  | nums l => simp only [atoms, nats, List.filterMap_map]; induction l <;> simp_all
  | pairs l => simp only [atoms, nats, List.filterMap_map]; induction l <;> simp_all
  | _ => rfl

theorem pairs_atoms (v : Val) :
    pairs (atoms v) = (match v with | .pair a b => [(a, b)] | .pairs l => l | _ => []) := by
  cases v with
  | words l => simp only [atoms, pairs, List.filterMap_map]; induction l <;> simp_all
  | nums l => simp only [atoms, pairs, List.filterMap_map]; induction l <;> simp_all
  | pairs l => simp only [atoms, pairs, List.filterMap_map]; induction l <;> simp_all
  | _ => rfl

theorem spans_atoms (v : Val) : spans (atoms v) =
    (match v with | .span a none => [decimal a] | .span a (some b) => [decimal a, decimal b] | _ => []) := by
  cases v with
  | words l => rcases l with _ | ⟨a, _ | ⟨b, l⟩⟩ <;> rfl
  | nums l => rcases l with _ | ⟨a, _ | ⟨b, l⟩⟩ <;> rfl
  | pairs l => rcases l with _ | ⟨a, _ | ⟨b, l⟩⟩ <;> rfl
  | span a b => cases b <;> simp [atoms, spans, decimal_eq]
  | _ => rfl

theorem strs_given {k : String} (h : how k.toList = .append) (is : List Item) :
    strs (held k.toList [] (givenC k.toList is)) = wordsGiven k is := by
  unfold held wordsGiven
  rw [h, given_eq, List.nil_append]
  dsimp only
  induction givenC k.toList is with
  | nil => rfl
  | cons v vs ih => rw [List.flatMap_cons, List.flatMap_cons, strs_append, ih, strs_atoms]; rfl

theorem strings_given {k : String} (h : how k.toList = .append) (is : List Item) :
    strings (held k.toList [] (givenC k.toList is)) = (wordsGiven k is).map String.ofList := by
  unfold strings
  rw [strs_given h]

theorem nats_given {k : String} (h : how k.toList = .append) (is : List Item) :
    nats (held k.toList [] (givenC k.toList is)) = numsGiven k is := by
  unfold held numsGiven
  rw [h, given_eq, List.nil_append]
  dsimp only
  induction givenC k.toList is with
  | nil => rfl
  | cons v vs ih => rw [List.flatMap_cons, List.flatMap_cons, nats_append, ih, nats_atoms]; rfl

theorem pairs_given {k : String} (h : how k.toList = .append) (is : List Item) :
    pairs (held k.toList [] (givenC k.toList is)) = pairsGiven k is := by
  unfold held pairsGiven
  rw [h, given_eq, List.nil_append]
  dsimp only
  induction givenC k.toList is with
  | nil => rfl
  | cons v vs ih => rw [List.flatMap_cons, List.flatMap_cons, pairs_append, ih, pairs_atoms]; rfl

theorem one_last {k : String} (h : how k.toList = .replace) (is : List Item) :
    one (held k.toList [] (givenC k.toList is)) = lastWord k is := by
  unfold held lastWord
  rw [h, given_eq]
  dsimp only
  cases (givenC k.toList is).getLast? with
  | none => rfl
  | some v =>
    dsimp only
    unfold one
    rw [strs_atoms]
    cases v <;> rfl

theorem spans_last {k : String} (h : how k.toList = .replace) (is : List Item) :
    spans (held k.toList [] (givenC k.toList is)) = lastSpan k is := by
  unfold held lastSpan
  rw [h, given_eq]
  dsimp only
  cases (givenC k.toList is).getLast? with
  | none => rfl
  | some v =>
    dsimp only
    rw [spans_atoms]
    cases v with
    | span a b => cases b <;> rfl
    | _ => rfl

theorem nats_last {k : String} (h : how k.toList = .replace) (is : List Item) :
    nats (held k.toList [] (givenC k.toList is)) = lastNums k is := by
  unfold held lastNums
  rw [h, given_eq]
  dsimp only
  cases (givenC k.toList is).getLast? with
  | none => rfl
  | some v =>
    dsimp only
    rw [nats_atoms]
    cases v <;> rfl

theorem toRaw_says (name : Str) (is : List Item) :
    SaysTerm name is (toRaw name fun k => held k [] (givenC k is)) where
  name := rfl
  address := strs_given (by decide) is
  addressExclude := strs_given (by decide) is
  sourceAddress := strs_given (by decide) is
  sourceAddressExclude := strs_given (by decide) is
  destinationAddress := strs_given (by decide) is
  destinationAddressExclude := strs_given (by decide) is
  port := strs_given (by decide) is
  sourcePort := strs_given (by decide) is
  destinationPort := strs_given (by decide) is
  action := strings_given (by decide) is
  protocol := strings_given (by decide) is
  protocolExcept := strings_given (by decide) is
  sourcePrefix := strings_given (by decide) is
  sourcePrefixExcept := strings_given (by decide) is
  destinationPrefix := strings_given (by decide) is
  destinationPrefixExcept := strings_given (by decide) is
  sourceTag := strings_given (by decide) is
  destinationTag := strings_given (by decide) is
  option := strings_given (by decide) is
  forwardingClass := strings_given (by decide) is
  forwardingClassExcept := strings_given (by decide) is
  icmpType := strings_given (by decide) is
  icmpCode := nats_given (by decide) is
  etherType := strings_given (by decide) is
  trafficType := strings_given (by decide) is
  dscpMatch := strings_given (by decide) is
  dscpExcept := strings_given (by decide) is
  flexibleMatchRange := by
    show (pairs _).map _ = _
    rw [pairs_given (by decide) is]
    apply List.map_congr_left
    intro p _
    simp
  platform := strings_given (by decide) is
  platformExclude := strings_given (by decide) is
  sourceZone := strings_given (by decide) is
  destinationZone := strings_given (by decide) is
  verbatim := by
    show ((pairs _).map _).map _ = _
    rw [pairs_given (by decide) is, List.map_map]
    rfl
  logging := strings_given (by decide) is
  precedence := by
    show (nats _).map _ = _
    rw [nats_last (by decide) is]
  restrictAddressFamily := congrArg (Option.map String.ofList) (one_last (by decide) is)
  fragmentOffset := spans_last (by decide) is
  hopLimit := spans_last (by decide) is
  packetLength := spans_last (by decide) is
  ttl := by
    show (one _).map _ = _
    rw [one_last (by decide) is]
    exact Option.map_congr fun x _ => decimal_eq x
  trafficClass := by
    show (one _).map _ = _
    rw [one_last (by decide) is]
    exact Option.map_congr fun x _ => decimal_eq x
  sourceInterface := congrArg (Option.map String.ofList) (one_last (by decide) is)
  destinationInterface := congrArg (Option.map String.ofList) (one_last (by decide) is)
  routingInstance := congrArg Option.isSome (one_last (by decide) is)
  nextIp := congrArg Option.isSome (one_last (by decide) is)
  nextInterface := congrArg Option.isSome (one_last (by decide) is)
  nextHopGroup := congrArg Option.isSome (one_last (by decide) is)
  encapsulate := congrArg Option.isSome (one_last (by decide) is)
  decapsulate := congrArg Option.isSome (one_last (by decide) is)
  filterTerm := congrArg Option.isSome (one_last (by decide) is)
  portMirror := congrArg Option.isSome (one_last (by decide) is)

theorem buildTerm_eq {t : RawItems} (h : ∀ i ∈ t.items, Valued i) :
    buildTerm t = .ok (toRaw t.name fun k => held k [] (givenC k t.items)) := by
  rcases addAll_spec t.items (fun _ => []) h with ⟨a, e, ha⟩
  unfold buildTerm
  rw [e]
  have : a = fun k => held k [] (givenC k t.items) := funext ha
  rw [this]

theorem buildTerm_ok {t : RawItems} {r} (h : buildTerm t = .ok r) :
    (∀ i ∈ t.items, Valued i) ∧ r = toRaw t.name fun k => held k [] (givenC k t.items) := by
  have hv : ∀ i ∈ t.items, Valued i := by
    unfold buildTerm at h
    cases he : addAll (fun _ => []) t.items with
    | error e => rw [he] at h; cases h
    | ok a => exact addAll_valued _ _ _ he
  rw [buildTerm_eq hv] at h
  cases h
  exact ⟨hv, rfl⟩

theorem buildTerm_says {t : RawItems} {r} (h : buildTerm t = .ok r) : SaysTerm t.name t.items r := by
  rw [(buildTerm_ok h).2]
  exact toRaw_says _ _

/-! ### the order of keywords -/

theorem givenC_same {is is' : List Item} (h : SameItems is is') (k : Str) : givenC k is = givenC k is' := by
  have := h (String.ofList k)
  rw [given_eq, given_eq, String.toList_ofList] at this
  exact this

theorem mem_givenC {i : Item} {is : List Item} : i ∈ is ↔ i.val ∈ givenC i.key is := by
  unfold givenC
  rw [List.mem_map]
  constructor
  · intro h
    exact ⟨i, List.mem_filter.2 ⟨h, by simp⟩, rfl⟩
  · rintro ⟨j, hj, e⟩
    rcases List.mem_filter.1 hj with ⟨h1, h2⟩
    have : j = i := by
      rcases i with ⟨a, b⟩; rcases j with ⟨c, d⟩
      simp at h2 e
      rw [h2, e]
    rwa [this] at h1

theorem buildTerm_same {t t' : RawItems} (hn : t.name = t'.name) (h : SameItems t.items t'.items) (r) :
    buildTerm t = .ok r ↔ buildTerm t' = .ok r := by
  have hm : ∀ i, i ∈ t.items ↔ i ∈ t'.items := fun i => by
    rw [mem_givenC, mem_givenC, givenC_same h]
  have he : (fun k => held k [] (givenC k t.items)) = fun k => held k [] (givenC k t'.items) :=
    funext fun k => by rw [givenC_same h]
  constructor
  · intro hb
    rcases buildTerm_ok hb with ⟨h1, rfl⟩
    rw [buildTerm_eq fun i hi => h1 i ((hm i).2 hi), he, hn]
  · intro hb
    rcases buildTerm_ok hb with ⟨h1, rfl⟩
    rw [buildTerm_eq fun i hi => h1 i ((hm i).1 hi), he, hn]

theorem listM_congr_ok {α α' β : Type} {f : α → Except Err β} {g : α' → Except Err β} :
    ∀ {l : List α} {l' : List α'}, l.length = l'.length →
    (∀ i (a : i < l.length) (b : i < l'.length) (r : β), f l[i] = .ok r ↔ g l'[i] = .ok r) →
    ∀ r, listM f l = .ok r ↔ listM g l' = .ok r
  | [], [], _, _, r => Iff.rfl
  | [], _ :: _, h, _, _ => by cases h
  | _ :: _, [], h, _, _ => by cases h
  | x :: l, x' :: l', h, hh, r => by
    have h0 := hh 0 (by simp) (by simp)
    simp only [List.getElem_cons_zero] at h0
    have ih := listM_congr_ok (f := f) (g := g) (l := l) (l' := l') (by simpa using h)
      (fun i a b r => hh (i + 1) (Nat.succ_lt_succ a) (Nat.succ_lt_succ b) r)
    cases r with
    | nil =>
      simp only [listM]
      constructor
      · intro hx
        rcases bind_ok hx with ⟨y, _, hy⟩
        rcases bind_ok hy with ⟨ys, _, hz⟩
        cases hz
      · intro hx
        rcases bind_ok hx with ⟨y, _, hy⟩
        rcases bind_ok hy with ⟨ys, _, hz⟩
        cases hz
    | cons y ys =>
      simp only [listM]
      constructor
      · intro hx
        rcases bind_ok hx with ⟨y', h1, hy⟩
        rcases bind_ok hy with ⟨ys', h2, hz⟩
        cases hz
        rw [(h0 _).1 h1, (ih _).1 h2]
        rfl
      · intro hx
        rcases bind_ok hx with ⟨y', h1, hy⟩
        rcases bind_ok hy with ⟨ys', h2, hz⟩
        cases hz
        rw [(h0 _).2 h1, (ih _).2 h2]
        rfl

theorem buildFilter_ok (f : RawFilter) (r) :
    buildFilter f = .ok r ↔ ∃ ts, listM buildTerm f.terms = .ok ts ∧ r = (buildHeader f.header, ts) := by
  unfold buildFilter
  cases h : listM buildTerm f.terms with
  | error e =>
    exact ⟨fun hh => (by cases hh), fun ⟨_, hh, _⟩ => (by cases hh)⟩
  | ok ts =>
    constructor
    · intro hh; cases hh; exact ⟨ts, rfl, rfl⟩
    · rintro ⟨ts', hh, rfl⟩; cases hh; rfl

theorem filters_same {fs fs' : List RawFilter} (h : SameFilters fs fs') :
    fs.length = fs'.length ∧ ∀ i (a : i < fs.length) (b : i < fs'.length) r, buildFilter fs[i] = .ok r ↔ buildFilter fs'[i] = .ok r := by
  induction h with
  | nil => exact ⟨rfl, fun i a => absurd a (by simp)⟩
  | @cons h ts ts' fs fs' len hh r ih =>
    refine ⟨by simp [ih.1], fun i a b r => ?_⟩
    cases i with
    | zero =>
      simp only [List.getElem_cons_zero, buildFilter_ok]
      have := listM_congr_ok (f := buildTerm) (g := buildTerm) len
        (fun i a b r => buildTerm_same (hh i a b).1 (hh i a b).2 r)
      constructor
      · rintro ⟨l, h1, h2⟩; exact ⟨l, (this l).1 h1, h2⟩
      · rintro ⟨l, h1, h2⟩; exact ⟨l, (this l).2 h1, h2⟩
    | succ i => exact ih.2 i (by simpa using a) (by simpa using b) r

theorem read_ok (e : Env) (s : Str) (p) :
    readPolicy e s = .ok p ↔
      ∃ fs l, PolicyIs fs (tokens s) ∧ fs ≠ [] ∧ listM buildFilter fs = .ok l ∧ buildPolicy e l = .ok p := by
  unfold readPolicy
  split
  · rename_i err h
    constructor
    · intro hh; cases hh
    · rintro ⟨fs, l, h1, _⟩
      rw [(parse_iff _ _).2 h1] at h
      cases h
  · rename_i h
    constructor
    · intro hh; cases hh
    · rintro ⟨fs, l, h1, h2, _⟩
      rw [(parse_iff _ _).2 h1] at h
      cases h
      exact absurd rfl h2
  · rename_i f fs h
    have hp := (parse_iff _ _).1 h
    cases hb : listM buildFilter (f :: fs) with
    | error err =>
      constructor
      · intro hh; cases hh
      · rintro ⟨fs', l, h1, _, h3, _⟩
        rw [(parse_iff _ _).2 h1] at h
        cases h
        rw [hb] at h3
        cases h3
    | ok l =>
      constructor
      · intro hh
        exact ⟨_, l, hp, by simp, hb, hh⟩
      · rintro ⟨fs', l', h1, _, h3, h4⟩
        rw [(parse_iff _ _).2 h1] at h
        cases h
        rw [hb] at h3
        cases h3
        exact h4

theorem read_same {e : Env} {s s' : Str} {fs fs' : List RawFilter} (h : PolicyIs fs (tokens s))
    (h' : PolicyIs fs' (tokens s')) (hh : SameFilters fs fs') (p) : readPolicy e s = .ok p ↔ readPolicy e s' = .ok p := by
  have hf := filters_same hh
  have hl := listM_congr_ok (f := buildFilter) (g := buildFilter) hf.1 hf.2
  have hne : fs ≠ [] ↔ fs' ≠ [] := by
    rw [← List.length_pos_iff, ← List.length_pos_iff, hf.1]
  have uniq : ∀ {fs fs' : List RawFilter} {ts}, PolicyIs fs ts → PolicyIs fs' ts → fs = fs' := fun h1 h2 => by
    have := (parse_iff _ _).2 h1
    rw [(parse_iff _ _).2 h2] at this
    cases this
    rfl
  rw [read_ok, read_ok]
  constructor
  · rintro ⟨f, l, h1, h2, h3, h4⟩
    rw [uniq h1 h] at h2 h3
    exact ⟨fs', l, h', hne.1 h2, (hl l).1 h3, h4⟩
  · rintro ⟨f, l, h1, h2, h3, h4⟩
    rw [uniq h1 h'] at h2 h3
    exact ⟨fs, l, h, hne.2 h2, (hl l).2 h3, h4⟩

theorem targets_eq (is : List Item) : is.flatMap targetOf = targetsGiven is := by
  unfold targetsGiven given
  induction is with
  | nil => rfl
  | cons i is ih =>
    rw [List.flatMap_cons, ih, List.filter_cons]
    rcases i with ⟨k, v⟩
    by_cases h : k = "target".toList
    · rw [if_pos (by simpa using h), List.map_cons, List.flatMap_cons]
      congr 1
      have hk : (k == "target".toList) = true := by simpa using h
      cases v with
      | words l =>
        cases l with
        | nil => rfl
        | cons p o => simp only [targetOf, hk, if_true]
      | _ => rfl
    · rw [if_neg (by simpa using h)]
      have : targetOf ⟨k, v⟩ = [] := by
        unfold targetOf
        split
        · rw [if_neg (by simpa using h)]
        · rfl
      rw [this, List.nil_append]

theorem listM_get {α β : Type} {f : α → Except Err β} : ∀ {l : List α} {r : List β}, listM f l = .ok r →
    r.length = l.length ∧ ∀ i (a : i < l.length) (b : i < r.length), f l[i] = .ok r[i]
  | [], r, h => by cases h; exact ⟨rfl, fun i a => absurd a (by simp)⟩
  | x :: l, r, h => by
    simp only [listM] at h
    rcases bind_ok h with ⟨y, h1, h2⟩
    rcases bind_ok h2 with ⟨ys, h3, h4⟩
    cases h4
    have ih := listM_get h3
    refine ⟨by simp [ih.1], fun i a b => ?_⟩
    cases i with
    | zero => exact h1
    | succ i => exact ih.2 i (Nat.lt_of_succ_lt_succ a) (Nat.lt_of_succ_lt_succ b)

theorem buildFilter_says {f : RawFilter} {r} (h : buildFilter f = .ok r) : SaysFilter f r := by
  rcases (buildFilter_ok f r).1 h with ⟨ts, h1, rfl⟩
  have := listM_get h1
  exact ⟨targets_eq _, this.1, fun i a b => buildTerm_says (this.2 i a b)⟩

/-! ### verbatim -/

theorem unescape_escape : ∀ {v : Str}, '\\' ∉ v → unescape (escapeQuotes v) = v
  | [], _ => rfl
  | c :: v, h => by
    have hc : c ≠ '\\' := fun hh => h (by simp [hh])
    have ih := unescape_escape (v := v) fun hh => h (by simp [hh])
    have e : escapeQuotes (c :: v) = (if c = '"' then ['\\', '"'] else [c]) ++ escapeQuotes v := rfl
    rw [e]
    by_cases hq : c = '"'
    · rw [if_pos hq, hq]
      show '"' :: unescape (escapeQuotes v) = _
      rw [ih]
    · rw [if_neg hq]
      show unescape (c :: escapeQuotes v) = _
      generalize he : escapeQuotes v = x at ih ⊢
      rw [unescape.eq_def]
      split
      · rename_i hh; injection hh with h1 h2; exact absurd h1 hc
      · rename_i hh; cases hh; rw [ih]
      · rename_i hh; cases hh

theorem escape_append (v w : Str) : escapeQuotes (v ++ w) = escapeQuotes v ++ escapeQuotes w := by
  simp [escapeQuotes]

theorem dropWhile_head {p : Char → Bool} {l : Str} (h : ∀ c, l.head? = some c → p c = false) : l.dropWhile p = l := by
  cases l with
  | nil => rfl
  | cons c l => rw [List.dropWhile_cons_of_neg]; simp [h c rfl]

theorem verbatim_read {v : Str} (hb : '\\' ∉ v) (hl : v.getLast? ≠ some '"') :
    verbatimText ('"' :: escapeQuotes v ++ ['"']) = v := by
  have hhead : ∀ c, (escapeQuotes v ++ ['"']).head? = some c → v ≠ [] → (c == '"') = false := by
    intro c hc hv
    cases v with
    | nil => exact absurd rfl hv
    | cons d v =>
      have e : escapeQuotes (d :: v) = (if d = '"' then ['\\', '"'] else [d]) ++ escapeQuotes v := rfl
      rw [e] at hc
      split at hc
      · simp at hc; subst hc; decide
      · rename_i hd; simp at hc; subst hc; simpa using hd
  unfold verbatimText stripDq
  rcases List.eq_nil_or_concat v with rfl | ⟨w, c, rfl⟩
  · rfl
  · rw [List.concat_eq_append] at *
    rw [List.cons_append, List.dropWhile_cons_of_pos (by decide), dropWhile_head fun d hd => hhead d hd (by simp)]
    have hc : c ≠ '"' := by
      intro hh
      apply hl
      simp [hh]
    rw [List.reverse_append]
    show unescape (List.dropWhile _ ('"' :: (escapeQuotes (w ++ [c])).reverse)).reverse = _
    rw [List.dropWhile_cons_of_pos (by decide), dropWhile_head, List.reverse_reverse, unescape_escape hb]
    intro d hd
    rw [List.head?_reverse, escape_append] at hd
    have e : escapeQuotes [c] = [c] := by simp [escapeQuotes, hc]
    rw [e] at hd
    simp at hd
    subst hd
    simpa using hc

end PolicyText
end Verif
