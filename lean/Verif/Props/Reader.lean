import Verif.Lemmas.Reader
import Verif.Props.Cgrep

/-!
Property theorems C149-C150: capirca/lib/policyreader.py, the library that searches policy files.
-/

namespace Verif.Props
open Verif Verif.Spec Verif.Naming Verif.PyStr Verif.Lemmas Verif.Lemmas.CgrepL Verif.Lemmas.ReaderL
open Verif.Cgrep (Db)
open Verif.Spec.Cgrep (NetsOk SvcsOk Address Contains)
open Verif.Spec.Reader (FileText NextDiffers Skip HeaderBody TermsText TermBody EvenQuotes Neutral termOf)

/-! ### C149: reading a policy file -/

/-- C149 (partial): a policy file whose braces and attributes are written with white space around them,
whose headers name one filter each, the next one always another one, reads as exactly its filters with
exactly their terms and the values of the attributes. Missing: a filter of the same name as the one before
(`C149_refuted_same`), and comments at the end of an attribute line (`C149_refuted_comment`). -/
theorem C149_reads_partial {lines : List (List Str)} {fs : List Reader.Filter} (h : FileText lines fs)
    (hd : NextDiffers [] fs) : Reader.read lines = .ok fs := by
  obtain ⟨s, e, r⟩ := run_file h {} [] {} [] ⟨rfl, rfl, rfl, rfl, rfl, rfl⟩ rfl hd
  unfold Reader.read
  rw [e]
  show Except.ok (s.out.map fun i => (s.objs[i]?).getD {}) = _
  rw [r.out, r.objs, List.nil_append]
  congr 1
  apply List.ext_getElem?
  intro i
  rw [List.getElem?_map]
  by_cases hi : i < fs.length
  · rw [List.getElem?_range' (by simpa using hi)]
    simp [Nat.add_comm 1 i, List.getElem?_eq_getElem hi]
  · rw [List.getElem?_eq_none (by simp; omega), List.getElem?_eq_none (by omega)]
    rfl

/-- words of a text -/
def rdWords (l : List String) : List (List Str) := l.map fun s => words s.toList

/-- a policy file -/
def rdLines : List (List Str) :=
  [["header".toList, ['{']]] ++ rdWords ["comment:: \"this is", "term x { in the", "text\"",
    "  target:: juniper edge inet"] ++
  [[['}']]] ++
  [["term".toList, "allow-web".toList, ['{']]] ++
  rdWords ["destination-address:: LAN", "destination-port:: WEB", "destination-address:: NET", "action:: accept"] ++
  [[['}']]]

/-- what it reads as -/
def rdFilters : List Reader.Filter :=
  [{ name := "edge".toList,
     term := [termOf "allow-web".toList [("destination-address".toList, ["LAN".toList]),
       ("destination-port".toList, ["WEB".toList]), ("destination-address".toList, ["NET".toList]),
       ("action".toList, ["accept".toList])]] }]

theorem rd_neutral {ws : List Str} (h : (decide (['}'] ∉ ws) && match ws with
    | [] => true
    | w :: _ => decide (w ∉ ["header".toList, "term".toList, "target::".toList, "source-address::".toList,
        "destination-address::".toList, "source-port::".toList, "destination-port::".toList, "action::".toList,
        "protocol::".toList, "option::".toList])) = true) : Neutral ws := by
  rw [Bool.and_eq_true, decide_eq_true_eq] at h
  refine ⟨h.1, ?_⟩
  rintro w rest rfl
  have h2 := h.2
  simp only [decide_eq_true_eq] at h2
  have hne : ∀ x ∈ ["header".toList, "term".toList, "target::".toList, "source-address::".toList,
        "destination-address::".toList, "source-port::".toList, "destination-port::".toList, "action::".toList,
        "protocol::".toList, "option::".toList], w ≠ x := fun x hx e => h2 (e ▸ hx)
  refine ⟨hne _ (by decide), hne _ (by decide), hne _ (by decide), fun k hk => hne _ ?_⟩
  revert k
  decide

theorem rd_file : FileText rdLines rdFilters := by
  have hb : HeaderBody "edge".toList (rdWords ["comment:: \"this is", "term x { in the", "text\"",
      "  target:: juniper edge inet"]) true := by
    refine .skip (s := rdWords ["comment:: \"this is", "term x { in the", "text\""])
      (.block (mid := rdWords ["term x { in the"]) ?_ ?_ ?_ (rd_neutral (by decide)) .nil)
      (.target (platform := "juniper".toList) (opts := ["inet".toList]) ?_ (by decide) .nil)
    · unfold EvenQuotes; decide
    · unfold EvenQuotes; decide
    · unfold EvenQuotes; decide
    · unfold EvenQuotes; decide
  have at1 : ∀ (k v : String) {ls as}, k.toList ∈ Spec.Reader.attrNames → EvenQuotes [v.toList] → ['}'] ∉ [v.toList] →
      TermBody ls as → TermBody ([k.toList ++ "::".toList, v.toList] :: ls) ((k.toList, [v.toList]) :: as) :=
    fun k v _ _ h1 h2 h3 h4 => .attr h1 h2 h3 h4
  have tb : TermBody (rdWords ["destination-address:: LAN", "destination-port:: WEB", "destination-address:: NET",
      "action:: accept"]) [("destination-address".toList, ["LAN".toList]), ("destination-port".toList, ["WEB".toList]),
      ("destination-address".toList, ["NET".toList]), ("action".toList, ["accept".toList])] := by
    have e : rdWords ["destination-address:: LAN", "destination-port:: WEB", "destination-address:: NET",
        "action:: accept"] = [["destination-address".toList ++ "::".toList, "LAN".toList],
          ["destination-port".toList ++ "::".toList, "WEB".toList],
          ["destination-address".toList ++ "::".toList, "NET".toList],
          ["action".toList ++ "::".toList, "accept".toList]] := by decide
    rw [e]
    exact at1 _ _ (by decide) (by unfold EvenQuotes; decide) (by decide)
      (at1 _ _ (by decide) (by unfold EvenQuotes; decide) (by decide)
        (at1 _ _ (by decide) (by unfold EvenQuotes; decide) (by decide)
          (at1 _ _ (by decide) (by unfold EvenQuotes; decide) (by decide) .nil)))
  have h := FileText.filter hb (TermsText.term (name := "allow-web".toList) (by decide) (by decide) tb .nil) .nil
  have e : rdLines = _ := (by simp [rdLines] : rdLines = ["header".toList, ['{']] :: (rdWords ["comment:: \"this is", "term x { in the", "text\"",
      "  target:: juniper edge inet"] ++ [['}']] :: ((["term".toList, "allow-web".toList, ['{']] :: (rdWords ["destination-address:: LAN", "destination-port:: WEB", "destination-address:: NET",
      "action:: accept"] ++ [['}']] :: [])) ++ [])))
  rw [e]
  exact h

example : FileText rdLines rdFilters ∧ NextDiffers [] rdFilters ∧ Reader.read rdLines = .ok rdFilters := by
  refine ⟨rd_file, ?_, by decide⟩
  simp [NextDiffers, rdFilters]

/-- C149 refuted: two filters of the same name, one after the other, are read as the same filter twice, each
with the terms of both. -/
theorem C149_refuted_same : ∃ lines fs, FileText lines fs ∧ (fs.map fun f => f.term.length) = [0, 1] ∧
    ∃ r, Reader.read lines = .ok r ∧ (r.map fun f => f.term.length) = [1, 1] := by
  have hb : HeaderBody "edge".toList (rdWords ["target:: juniper edge inet"]) true :=
    .target (platform := "juniper".toList) (opts := ["inet".toList]) (by unfold EvenQuotes; decide) (by decide) .nil
  exact ⟨_, _, .filter hb .nil (.filter hb (.term (name := "x".toList) (by decide) (by decide) .nil .nil) .nil), rfl, _,
    rfl, rfl⟩

/-- C149 refuted: the words of a comment at the end of a line are read as values. -/
theorem C149_refuted_comment : Reader.read ([["header".toList, ['{']]] ++ rdWords ["target:: juniper edge"] ++ [[['}']]] ++
    [["term".toList, "x".toList, ['{']]] ++ rdWords ["destination-address:: LAN # not NET"] ++ [[['}']]]) =
    .ok [{ name := "edge".toList,
           term := [{ name := "x".toList,
                      destination := ["LAN".toList, "#".toList, "not".toList, "NET".toList] }] }] := by decide

/-- C149 refuted: the last line of a text in double quotes is read like any other line. -/
theorem C149_refuted_string : (Reader.read ([["header".toList, ['{']]] ++
    rdWords ["comment:: \"see the", "term list\"", "target:: juniper edge"] ++ [[['}']]])).map
      (·.map fun f => f.term.map fun t => String.ofList t.name) = .ok [["list\""]] := by decide

/-! ### C150: searching a policy -/

theorem enum_mem (l : List α) (i : Nat) (x : α) : (i, x) ∈ Reader.enum l ↔ l[i]? = some x := by
  unfold Reader.enum
  rw [List.mem_iff_getElem?]
  constructor
  · rintro ⟨n, hn⟩
    rw [List.getElem?_zip_eq_some] at hn
    obtain ⟨h1, h2⟩ := hn
    rw [List.getElem?_range] at h1
    · cases h1; exact h2
    · rw [List.getElem?_eq_some_iff] at h2; exact h2.1
  · intro h
    refine ⟨i, ?_⟩
    rw [List.getElem?_zip_eq_some]
    refine ⟨?_, h⟩
    rw [List.getElem?_range (List.getElem?_eq_some_iff.1 h).1]

theorem hit_iff {ps tokens : List Str} (h : ps ≠ []) : Reader.hit ps tokens = true ↔ ∃ t ∈ tokens, t ∈ ps := by
  unfold Reader.hit
  rw [if_neg (by simpa using h), List.any_eq_true]
  constructor
  · rintro ⟨t, h1, h2⟩; exact ⟨t, List.contains_iff_mem.1 h2, h1⟩
  · rintro ⟨t, h1, h2⟩; exact ⟨t, h2, List.contains_iff_mem.2 h1⟩

theorem dropAny_mem {l : List Str} (hn : l.Nodup) (h : "ANY".toList ∈ l ∨ "RESERVED".toList ∉ l) (t : Str) :
    t ∈ Reader.dropAny l ↔ t ∈ l ∧ t ≠ "ANY".toList ∧ t ≠ "RESERVED".toList := by
  unfold Reader.dropAny
  split
  · have hn2 : (l.erase "ANY".toList).Nodup := hn.erase _
    rw [hn2.mem_erase_iff, hn.mem_erase_iff]
    constructor
    · rintro ⟨h1, h2, h3⟩; exact ⟨h3, h2, h1⟩
    · rintro ⟨h1, h2, h3⟩; exact ⟨h3, h2, h1⟩
  · next hc =>
    rw [List.contains_iff_mem] at hc
    constructor
    · intro ht
      refine ⟨ht, fun e => hc (e ▸ ht), fun e => ?_⟩
      rcases h with h | h
      · exact hc h
      · exact h (e ▸ ht)
    · exact fun h => h.1

/-- Asking for a port is sensible: the service definitions can be searched and mention it. -/
def PortQuery (db : Db) (q : Option Str) : Prop :=
  ∀ x, q = some x → x ≠ [] ∧ ∃ t, Above db.svcs AnyRef x t

/-- Asking for an address is sensible: it starts with a digit and is in some token other than `ANY` and
`RESERVED`; and it is in `ANY` if it is in `RESERVED`. -/
def AddrQuery (db : Db) (q : Option Str) : Prop :=
  ∀ x, q = some x → ∃ a, Address db.strict x a ∧
    (∃ t, Contains db.nets db.ip t a ∧ t ≠ "ANY".toList ∧ t ≠ "RESERVED".toList) ∧
    (Contains db.nets db.ip "ANY".toList a ∨ ¬ Contains db.nets db.ip "RESERVED".toList a)

/-- One of the tokens mentions the port. -/
def PortAsked (db : Db) (q : Option Str) (tokens : List Str) : Prop :=
  ∀ x, q = some x → ∃ t ∈ tokens, Above db.svcs AnyRef x t

/-- One of the tokens other than `ANY` and `RESERVED` contains the address. -/
def AddrAsked (db : Db) (q : Option Str) (tokens : List Str) : Prop :=
  ∀ x, q = some x → ∃ a, db.strict x = some a ∧
    ∃ t ∈ tokens, t ≠ "ANY".toList ∧ t ≠ "RESERVED".toList ∧ Contains db.nets db.ip t a

theorem port_parents {db : Db} (hs : SvcsOk db.svcs) {q : Option Str} (hq : PortQuery db q) :
    ∃ ps, Reader.parents (getParents db.svcs) q = .ok ps ∧
      ∀ tokens, Reader.hit ps tokens = true ↔ PortAsked db q tokens := by
  unfold Reader.parents PortAsked
  cases q with
  | none => exact ⟨[], rfl, fun tokens => by simp [Reader.hit]⟩
  | some x =>
    obtain ⟨hx, t, ht⟩ := hq x rfl
    cases x with
    | nil => exact absurd rfl hx
    | cons c cs =>
      obtain ⟨l, e, hm⟩ := C26_parents_partial hs.items hs.nodup hs.bare hs.noloop (c :: cs)
      refine ⟨l, e, fun tokens => ?_⟩
      rw [hit_iff (fun e => by have := (hm t).2 ht; rw [e] at this; cases this)]
      constructor
      · rintro ⟨u, hu, hl⟩ x hx
        cases hx
        exact ⟨u, hu, (hm u).1 hl⟩
      · intro h
        obtain ⟨u, hu, hl⟩ := h _ rfl
        exact ⟨u, hu, (hm u).2 hl⟩

theorem addr_parents {db : Db} (hn : NetsOk db.nets db.ip) {q : Option Str} (hq : AddrQuery db q) :
    ∃ ps, Reader.parents (fun q => do
        let l ← getIpParentsStr db.nets db.ip db.strict q
        Except.ok (Reader.dropAny l)) q = .ok ps ∧
      ∀ tokens, Reader.hit ps tokens = true ↔ AddrAsked db q tokens := by
  unfold Reader.parents AddrAsked
  cases q with
  | none => exact ⟨[], rfl, fun tokens => by simp [Reader.hit]⟩
  | some x =>
    obtain ⟨a, ha, ⟨t, ht, ht1, ht2⟩, hany⟩ := hq x rfl
    cases x with
    | nil => obtain ⟨⟨c, cs, h, _⟩, _⟩ := ha; cases h
    | cons c cs =>
      obtain ⟨l, e, hnd, hm⟩ := parents_address hn ha
      have hd := dropAny_mem hnd (by rw [hm, hm]; exact hany)
      refine ⟨Reader.dropAny l, by dsimp only; rw [e]; rfl, fun tokens => ?_⟩
      rw [hit_iff (fun e => by
        have := (hd t).2 ⟨(hm t).2 ht, ht1, ht2⟩
        rw [e] at this; cases this)]
      constructor
      · rintro ⟨u, hu, hl⟩ x hx
        cases hx
        obtain ⟨h1, h2, h3⟩ := (hd u).1 hl
        exact ⟨a, ha.2.1, u, hu, h2, h3, (hm u).1 h1⟩
      · intro h
        obtain ⟨a', ha', u, hu, h2, h3, hc⟩ := h _ rfl
        rw [ha.2.1] at ha'; cases ha'
        exact ⟨u, hu, (hd u).2 ⟨(hm u).2 hc, h2, h3⟩⟩

/-- C150 (partial): for searchable definitions and sensible questions, `Matches` without a filter name
returns exactly the positions of the terms that name, for each thing asked for, a token (other than `ANY`
and `RESERVED` for addresses) containing it. Missing: things in no token match every term
(`C150_refuted_unknown`), `RESERVED` counts when the address is not in `ANY` (`C150_refuted_reserved`), a port
in the range of a service is not found (`C150_refuted_range`), and terms that leave an attribute out, and so
apply to everything, are not found (`C150_refuted_left_out`). -/
theorem C150_matches_partial {db : Db} (hn : NetsOk db.nets db.ip) (hs : SvcsOk db.svcs) {fs : List Reader.Filter}
    {src dst dport sport : Option Str} (h1 : AddrQuery db src) (h2 : AddrQuery db dst) (h3 : PortQuery db dport)
    (h4 : PortQuery db sport) :
    ∃ r, Reader.matchTerms db fs src dst dport sport none = .ok r ∧
      ∀ i j, (i, j) ∈ r ↔ ∃ f t, fs[i]? = some f ∧ f.term[j]? = some t ∧ AddrAsked db src t.source ∧
        AddrAsked db dst t.destination ∧ PortAsked db dport t.dport ∧ PortAsked db sport t.sport := by
  obtain ⟨dp, e1, m1⟩ := port_parents hs h3
  obtain ⟨sp, e2, m2⟩ := port_parents hs h4
  obtain ⟨d, e3, m3⟩ := addr_parents hn h2
  obtain ⟨s, e4, m4⟩ := addr_parents hn h1
  refine ⟨_, by unfold Reader.matchTerms; rw [e1, e2, e3, e4]; rfl, fun i j => ?_⟩
  rw [List.mem_flatMap]
  constructor
  · rintro ⟨⟨i', f⟩, hf, hx⟩
    rw [List.mem_map] at hx
    obtain ⟨j', hj, he⟩ := hx
    cases he
    unfold Reader.termHits at hj
    rw [List.mem_map] at hj
    obtain ⟨⟨j', t⟩, ht, he⟩ := hj
    cases he
    rw [List.mem_filter] at ht
    obtain ⟨ht, hh⟩ := ht
    simp only [Bool.and_eq_true] at hh
    exact ⟨f, t, (enum_mem _ _ _).1 hf, (enum_mem _ _ _).1 ht, (m4 _).1 hh.2, (m3 _).1 hh.1.2, (m1 _).1 hh.1.1.1,
      (m2 _).1 hh.1.1.2⟩
  · rintro ⟨f, t, hf, ht, a1, a2, a3, a4⟩
    refine ⟨(i, f), (enum_mem _ _ _).2 hf, ?_⟩
    rw [List.mem_map]
    refine ⟨j, ?_, rfl⟩
    unfold Reader.termHits
    rw [List.mem_map]
    refine ⟨(j, t), List.mem_filter.2 ⟨(enum_mem _ _ _).2 ht, ?_⟩, rfl⟩
    simp only [Bool.and_eq_true]
    exact ⟨⟨⟨(m1 _).2 a3, (m2 _).2 a4⟩, (m3 _).2 a2⟩, (m4 _).2 a1⟩

/-- C150 (partial): with a filter name, the terms of the last filter of that name are searched, and the
filter is reported as number 0. Missing: its number in the policy, which is what is promised
(`C150_refuted_number`). -/
theorem C150_named_partial {db : Db} {pre post : List Reader.Filter} {f : Reader.Filter} (hne : f.name ≠ [])
    (hp : ∀ g ∈ post, g.name ≠ f.name) (src dst dport sport : Option Str) :
    Reader.matchTerms db (pre ++ f :: post) src dst dport sport (some f.name) =
      Reader.matchTerms db [f] src dst dport sport none := by
  have : Reader.chosen (pre ++ f :: post) (some f.name) = Reader.chosen [f] none := by
    unfold Reader.chosen
    cases hn : f.name with
    | nil => exact absurd hn hne
    | cons c cs =>
      dsimp only
      have : (pre ++ f :: post).filter (fun g => c :: cs == g.name) = pre.filter (fun g => c :: cs == g.name) ++ [f] := by
        rw [List.filter_append, List.filter_cons_of_pos (by rw [hn]; simp)]
        congr 1
        rw [List.filter_eq_nil_iff.2]
        intro g hg
        rw [beq_iff_eq, ← hn]
        exact fun e => hp g hg e.symm
      rw [this, List.getLast?_append]
      rfl
  unfold Reader.matchTerms
  rw [this]

/-- C150: a name that no filter has is refused. -/
theorem C150_invalid {db : Db} {fs : List Reader.Filter} {name : Str} (hne : name ≠ []) (h : ∀ f ∈ fs, f.name ≠ name)
    {src dst dport sport : Option Str} {r : List (Nat × Nat)} :
    Reader.matchTerms db fs src dst dport sport (some name) ≠ .ok r := by
  intro hr
  unfold Reader.matchTerms at hr
  obtain ⟨_, _, hr⟩ := bind_ok hr
  obtain ⟨_, _, hr⟩ := bind_ok hr
  obtain ⟨_, _, hr⟩ := bind_ok hr
  obtain ⟨_, _, hr⟩ := bind_ok hr
  obtain ⟨_, hc, _⟩ := bind_ok hr
  unfold Reader.chosen at hc
  cases name with
  | nil => exact hne rfl
  | cons c cs =>
    dsimp only at hc
    rw [List.filter_eq_nil_iff.2 (fun f hf => by
      rw [beq_iff_eq]; exact fun e => h f hf e.symm)] at hc
    cases hc

/-- services that can be searched by token -/
def rdSvcs : Defs := [("HTTP".toList, ["80/tcp".toList]), ("WEB".toList, ["HTTP".toList]), ("HIGH".toList, ["8000-9000/tcp".toList])]

/-- the definitions of the examples -/
def rdDb : Db := { nets := cgNets, svcs := rdSvcs, ip := exIp, strict := cgStrict }

theorem rdSvcs_ok : SvcsOk rdSvcs where
  items := itemsOk_of (by decide)
  nodup := by decide
  noloop := noLoop_of (fun s => if s = "WEB".toList then 2 else if s ∈ ["HTTP".toList, "HIGH".toList] then 1 else 0)
    (by decide)
  bare := by
    intro e he i hi v hv hk
    have : ∀ e ∈ rdSvcs, ∀ i ∈ e.2, itemTok i ∈ keys rdSvcs → i = itemTok i := by decide
    rw [← itemTok_item hv] at hk ⊢
    exact this e he i hi hk

theorem cg_lan5_in : Contains cgNets exIp "LAN".toList { ver := .v4, addr := 0xc0a80105, plen := 32 } := by
  refine ⟨{ ver := .v4, addr := 0xc0a80100, plen := 24 }, "LAN".toList, ⟨.refl, "192.168.1.0/24".toList,
    ⟨["192.168.1.0/24".toList], "192.168.1.0/24".toList, rfl, by decide, by decide⟩, by decide⟩, ?_⟩
  rintro v x ⟨h1, h2, h3⟩
  exact ⟨h1, Nat.le_trans (by decide) h2, Nat.lt_of_lt_of_le h3 (by decide)⟩

theorem rd_queries : AddrQuery rdDb (some "192.168.1.5".toList) ∧ PortQuery rdDb (some "80/tcp".toList) ∧
    AddrQuery rdDb none ∧ PortQuery rdDb none := by
  refine ⟨?_, ?_, by rintro x ⟨⟩, by rintro x ⟨⟩⟩
  · rintro x h
    cases h
    refine ⟨_, cg_lan5, ⟨"LAN".toList, cg_lan5_in, by decide, by decide⟩, .inr ?_⟩
    rintro ⟨b, s, hof, _⟩
    exact absurd (netOf_key hof) (by decide)
  · rintro x h
    cases h
    exact ⟨by decide, "HTTP".toList, "HTTP".toList, ⟨["80/tcp".toList], "80/tcp".toList, rfl, by decide, by decide⟩, id, .refl⟩

example : NetsOk rdDb.nets rdDb.ip ∧ SvcsOk rdDb.svcs ∧
    Reader.matchTerms rdDb rdFilters none (some "192.168.1.5".toList) (some "80/tcp".toList) none none = .ok [(0, 0)] ∧
    Reader.matchTerms rdDb rdFilters (some "192.168.1.5".toList) none none none none = .ok [] :=
  ⟨cgNets_ok, rdSvcs_ok, by decide, by decide⟩

/-- C150 refuted: an address that no token contains matches every term. -/
theorem C150_refuted_unknown : getIpParentsStr rdDb.nets rdDb.ip rdDb.strict "fe80::1".toList = .ok [] ∧
    Reader.matchTerms rdDb rdFilters none (some "fe80::1".toList) none none none = .ok [(0, 0)] := by decide

/-- C150 refuted: an address in `RESERVED` but not in `ANY` matches a term for `RESERVED`. -/
theorem C150_refuted_reserved : Reader.matchTerms
    { rdDb with nets := [("RESERVED".toList, ["10.0.0.0/8".toList])] }
    [{ name := "f".toList, term := [{ name := "t".toList, destination := ["RESERVED".toList] }] }]
    none (some "10.0.0.1".toList) none none none = .ok [(0, 0)] ∧
  Reader.matchTerms
    { rdDb with nets := [("ANY".toList, ["10.0.0.0/8".toList]), ("RESERVED".toList, ["10.0.0.0/8".toList]),
                         ("TEN".toList, ["10.0.0.0/8".toList])] }
    [{ name := "f".toList, term := [{ name := "t".toList, destination := ["RESERVED".toList] }] }]
    none (some "10.0.0.1".toList) none none none = .ok [] := by decide

/-- C150 refuted: port 8080 is in the range of `HIGH`, but no token is found for it, and so a term for
another port matches. -/
theorem C150_refuted_range : getPortParents rdSvcs "8080".toList "tcp".toList = .ok ["HIGH".toList] ∧
    Reader.matchTerms rdDb
      [{ name := "f".toList, term := [{ name := "t".toList, dport := ["HTTP".toList] }] }]
      none none (some "8080/tcp".toList) none none = .ok [(0, 0)] := by decide

/-- C150 refuted: a term without destination addresses is not found, though it applies to all. -/
theorem C150_refuted_left_out : Reader.matchTerms rdDb
    [{ name := "f".toList, term := [{ name := "all".toList, action := ["deny".toList] }] }]
    none (some "10.0.0.1".toList) none none none = .ok [] := by decide

/-- C150 refuted: the second filter, asked for by its name, is reported as number 0. -/
theorem C150_refuted_number : Reader.matchTerms rdDb
    [{ name := "first".toList, term := [] },
     { name := "second".toList, term := [{ name := "t".toList, destination := ["LAN".toList] }] }]
    none (some "192.168.1.5".toList) none none (some "second".toList) = .ok [(0, 0)] := by decide

end Verif.Props
