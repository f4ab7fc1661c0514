import Verif.Meta.Result
import Verif.Props.LineDefs
import Verif.Props.Call

/-!
# Reading results (C90)
-/

set_option linter.unusedSectionVars false
set_option linter.unusedVariables false

namespace Bta.Meta

open Py

variable {V : Type}

/-! ## Lemmas -/

/-- The slots of a generated class are different, and none of them is an old name. -/
structure LGen.Sound (g : LGen) : Prop where
  nodup : g.lines.Nodup
  direct : ∀ n ∈ g.lines, n ∉ g.mappings.map Prod.snd

theorem genLines_sound (bases : List (List String)) (defs : List LDef) (ext : List String) : (genLines bases defs ext).Sound :=
  ⟨(nodup_keepLast _).filter _, fun n hn => by simpa [genLines] using (List.mem_filter.1 hn).2⟩

theorem outGen_sound (c : List Row) : (outGen c).Sound := by
  cases c with
  | nil => exact ⟨List.nodup_nil, fun n hn => by simp [outGen] at hn⟩
  | cons r l => exact genLines_sound _ _ _

theorem LGen.resolve_direct {g : LGen} {n : String} (h : n ∉ g.mappings.map Prod.snd) : g.resolve n = some n := by
  rw [LGen.resolve, if_neg h]

theorem LGen.Sound.getattr {g : LGen} (hg : g.Sound) (st : Dict String V) {n : String} (hn : n ∈ g.lines) {v : V}
    (h : get? st n = some v) : g.getattr st n = .ok v := by
  simp only [LGen.getattr, LGen.resolve, if_neg (hg.direct n hn), h]

theorem get?_zip {ns : List String} (hn : ns.Nodup) (vs : List V) {k : Nat} {n : String} {v : V} (h1 : ns[k]? = some n)
    (h2 : vs[k]? = some v) : get? (ns.zip vs) n = some v := by
  induction ns generalizing vs k with
  | nil => simp at h1
  | cons m ns ih =>
    cases vs with
    | nil => simp at h2
    | cons w vs =>
      cases k with
      | zero =>
        simp only [List.getElem?_cons_zero, Option.some.injEq] at h1 h2
        subst h1 h2
        simp [get?]
      | succ k =>
        simp only [List.getElem?_cons_succ] at h1 h2
        have : m ≠ n := by
          rintro rfl
          exact (List.nodup_cons.1 hn).1 (List.mem_of_getElem? h1)
        simp only [List.zip_cons_cons, get?, if_neg this]
        exact ih (List.nodup_cons.1 hn).2 vs h1 h2

theorem index?_of_nodup {l : List String} (hn : l.Nodup) {k : Nat} {n : String} (h : l[k]? = some n) : index? l n = some k := by
  obtain ⟨i, hi⟩ := index?_isSome (List.mem_of_getElem? h)
  rw [hi, (List.getElem?_inj (index?_lt hi) hn).1 ((index?_some hi).1.trans h.symm)]

theorem mapM_ok {α β : Type} (f : α → Except Err β) (l : List α) (g : List β) (hl : l.length = g.length)
    (h : ∀ (k : Nat) a b, l[k]? = some a → g[k]? = some b → f a = .ok b) : l.mapM f = .ok g := by
  induction l generalizing g with
  | nil => cases g with
    | nil => rfl
    | cons => simp at hl
  | cons a l ih =>
    cases g with
    | nil => simp at hl
    | cons b g =>
      have h1 := h 0 a b (by simp) (by simp)
      have h2 := ih g (by simpa using hl) (fun k x y hx hy => h (k + 1) x y (by simpa using hx) (by simpa using hy))
      simp only [List.mapM_cons, h1, h2]
      rfl

/-! ## C90 -/

/-- Every output can be read by its attribute in `outputs`, by its name in brackets, by its position from the front and from the
back, and all of these are the same line: the one which the initialiser has assigned.  For every chain of classes. -/
theorem C90_same_line (c : List Row) (ins outs : List (Line V)) (hl : outs.length = (outGen c).lines.length)
    {k : Nat} {n : String} {l : Line V} (hn : (outGen c).lines[k]? = some n) (hv : outs[k]? = some l) :
    let ind := IndObj.ofCall c ins outs
    ind.outputs.getattr n = .ok (.line l) ∧ ind.getitem (.str n) = .ok l ∧ ind.getitem (.int k) = .ok l ∧
      ind.getitem (.int ((k : Int) - ind.len)) = .ok l := by
  have hs := outGen_sound c
  have hg : (outGen c).getattr ((outGen c).lines.zip outs) n = .ok l :=
    hs.getattr _ (List.mem_of_getElem? hn) (get?_zip hs.nodup outs hn hv)
  have hk : k < (outGen c).lines.length := (List.getElem?_eq_some_iff.1 hn).1
  refine ⟨?_, ?_, ?_, ?_⟩
  · simp only [IndObj.ofCall, LinesObj.getattr, hg]
  · simp only [IndObj.ofCall, IndObj.getitem, LinesObj.getitem, index?_of_nodup hs.nodup hn, hn, hg]
  · have : pyGet (outGen c).lines (k : Int) = some n := by
      simp [pyGet, hn]
    simp only [IndObj.ofCall, IndObj.getitem, LinesObj.getitem, this, hg]
  · have : pyGet (outGen c).lines ((k : Int) - (outGen c).lines.length) = some n := by
      simp only [pyGet]
      rw [if_neg (by omega), if_pos (by omega)]
      simpa using hn
    simp only [IndObj.ofCall, IndObj.getitem, IndObj.len, LinesObj.len, LinesObj.getitem, this, hg]

/-- Non-vacuity: the two outputs of the stochastic. -/
example : (outGen (libChain "stochastic")).lines = ["k", "d"] := by decide +kernel

/-- All of the outputs: their number, their names in the order of the declaration, the lines in the same order. -/
theorem C90_all_lines (c : List Row) (ins outs : List (Line V)) (hl : outs.length = (outGen c).lines.length) :
    let ind := IndObj.ofCall c ins outs
    ind.len = outs.length ∧ ind.keys = (outGen c).lines ∧ ind.toList = .ok outs := by
  have hs := outGen_sound c
  refine ⟨hl.symm, rfl, ?_⟩
  apply mapM_ok _ _ _ hl.symm
  intro k a b ha hb
  exact hs.getattr _ (List.mem_of_getElem? ha) (get?_zip hs.nodup outs ha hb)

/-- `ind.df` of a fresh indicator: one column for each output, in order, under its name, with the values of its line. -/
theorem C90_frame (c : List Row) (ins outs : List (Line V)) (hl : outs.length = (outGen c).lines.length) :
    (IndObj.ofCall c ins outs).readDf.1 = .ok ((outGen c).lines.zip (outs.map Line.series)) := by
  have hs := outGen_sound c
  have : frameOf (IndObj.ofCall c ins outs).outputs = .ok ((outGen c).lines.zip (outs.map Line.series)) := by
    apply mapM_ok _ _ _ (by simp [LinesObj.keys, IndObj.ofCall, hl])
    intro k a b ha hb
    have hk : (outGen c).lines[k]? = some a := ha
    rw [List.getElem?_zip_eq_some] at hb
    obtain ⟨h1, h2⟩ := hb
    rw [List.getElem?_map, Option.map_eq_some_iff] at h2
    obtain ⟨l, hlk, hb2⟩ := h2
    have := (C90_same_line c ins outs hl hk hlk).2.1
    simp only [IndObj.getitem] at this
    rw [this]
    have e : b.1 = a := by rw [hk] at h1; exact (Option.some.inj h1).symm
    simp only [Except.map, hb2, ← e]
  simp only [IndObj.readDf]
  rw [show (IndObj.ofCall c ins outs).df = none from rfl]
  simp only [this]

/-- A position outside, or a name which is no output, is an error: IndexError, ValueError. -/
theorem C90_unknown (c : List Row) (ins outs : List (Line V)) :
    let ind := IndObj.ofCall c ins outs
    (∀ i : Int, (ind.len : Int) ≤ i ∨ i < -(ind.len : Int) → ind.getitem (.int i) = .error .indexError) ∧
      (∀ n, n ∉ (outGen c).lines → ind.getitem (.str n) = .error .valueError) := by
  refine ⟨fun i hi => ?_, fun n hn => ?_⟩
  · have : pyGet (outGen c).lines i = none := by
      simp only [IndObj.ofCall, IndObj.len, LinesObj.len] at hi
      simp only [pyGet]
      split
      · rw [List.getElem?_eq_none]; omega
      · rw [if_neg (by omega)]
    simp only [IndObj.ofCall, IndObj.getitem, LinesObj.getitem, this]
  · simp only [IndObj.ofCall, IndObj.getitem, LinesObj.getitem, index?_none.2 hn]

/-! ### Attributes of the indicator -/

/-- The same value about other lines. -/
def AVal.mapL {A B : Type} (g : Line A → Line B) : AVal A → AVal B
  | .line l => .line (g l)
  | .name s => .name s
  | .lines ls => .lines (ls.map g)
  | .other => .other

/-- The same dictionary about other lines. -/
def dmap {A B : Type} (g : Line A → Line B) (d : Dict String (AVal A)) : Dict String (AVal B) :=
  d.map (fun p => (p.1, p.2.mapL g))

theorem get?_dmap {A B : Type} (g : Line A → Line B) (d : Dict String (AVal A)) (n : String) :
    get? (dmap g d) n = (get? d n).map (AVal.mapL g) := by
  induction d with
  | nil => rfl
  | cons p d ih =>
    simp only [dmap, List.map_cons, get?] at *
    split <;> simp [ih]

theorem set_dmap {A B : Type} (g : Line A → Line B) (d : Dict String (AVal A)) (n : String) (v : AVal A) :
    set (dmap g d) n (v.mapL g) = dmap g (set d n v) := by
  induction d with
  | nil => rfl
  | cons p d ih =>
    simp only [dmap, List.map_cons, Py.set] at *
    split <;> simp [ih]

theorem update_dmap {A B : Type} (g : Line A → Line B) (d : Dict String (AVal A)) (e : List (String × AVal A)) :
    update (dmap g d) (dmap g e) = dmap g (update d e) := by
  induction e generalizing d with
  | nil => rfl
  | cons p e ih =>
    simp only [update, dmap, List.map_cons, List.foldl_cons] at *
    rw [← ih, ← dmap, set_dmap]
    rfl

theorem erase_dmap {A B : Type} (g : Line A → Line B) (d : Dict String (AVal A)) (n : String) :
    erase (dmap g d) n = dmap g (erase d n) := by
  induction d with
  | nil => rfl
  | cons p d ih =>
    simp only [dmap, List.map_cons, erase] at *
    split <;> simp [ih]

theorem instDict_map {A B : Type} (g : Line A → Line B) (slots : List String) (ins : List (Line A)) :
    instDict slots (ins.map g) = dmap g (instDict slots ins) := by
  unfold instDict
  simp only [← update_dmap]
  congr 1
  congr 1
  · congr 1
    · simp only [dmap, List.map_cons, List.map_nil, AVal.mapL, List.head?_map]
      cases ins <;> simp
    · rw [List.zipIdx_map]
      simp [dmap, List.map_flatMap, List.flatMap_map, AVal.mapL, Prod.map]
  · simp [dmap, List.map_flatMap, AVal.mapL]

theorem instAttrs_map {A B : Type} (g : Line A → Line B) (slots : List String) (ins : List (Line A)) :
    instAttrs slots (ins.map g) = dmap g (instAttrs slots ins) := by
  unfold instAttrs
  rw [instDict_map]
  generalize removedNames slots.length = r
  generalize instDict slots ins = d
  induction r generalizing d with
  | nil => rfl
  | cons n r ih => simp only [List.foldl_cons, erase_dmap, ih]

/-- Stand-ins for the inputs: their numbers. -/
def numberLines (m : Nat) : List (Line Nat) := (List.range m).map (fun k => ⟨[k], 1⟩)

theorem numberLines_map (ins : List (Line V)) :
    ∃ g : Line Nat → Line V, ins = (numberLines ins.length).map g ∧ ∀ (k : Nat) (l : Line V), ins[k]? = some l → g ⟨[k], 1⟩ = l := by
  cases ins with
  | nil => exact ⟨fun _ => ⟨[], 1⟩, rfl, fun k l h => by simp at h⟩
  | cons a as =>
    refine ⟨fun l => ((a :: as)[l.series.headD 0]?).getD a, ?_, ?_⟩
    · apply List.ext_getElem?
      intro k
      simp only [numberLines, List.map_map, List.getElem?_map]
      by_cases hk : k < (a :: as).length
      · rw [List.getElem?_range hk, List.getElem?_eq_getElem hk]
        simp [List.getElem?_eq_getElem hk]
      · rw [List.getElem?_eq_none (by omega), List.getElem?_eq_none (by simpa using hk)]
        rfl
    · intro k l h
      simp [h]

set_option maxRecDepth 100000 in
theorem library_attrs : ∀ r ∈ library, ∀ n ∈ (outGen (libChain r.name)).lines, r.name ∉ ["add", "sub", "div"] →
    n ∉ ["size", "df", "series"] ∧ n ∉ classNames ∧
    get? (instAttrs (inGen (libChain r.name)).lines (numberLines (inGen (libChain r.name)).lines.length)) n = none := by
  decide +kernel

/-- For every indicator of the library but `add`, `sub`, and `div` the attribute with the name of an output is this output,
whatever the inputs are. -/
theorem C90_attribute_partial (lineAttrs : List String) {r : Row} (hr : r ∈ library) (hne : r.name ∉ ["add", "sub", "div"])
    (ins outs : List (Line V)) (hi : ins.length = (inGen (libChain r.name)).lines.length)
    (hl : outs.length = (outGen (libChain r.name)).lines.length) {k : Nat} {n : String} {l : Line V}
    (hn : (outGen (libChain r.name)).lines[k]? = some n) (hv : outs[k]? = some l) :
    (IndObj.ofCall (libChain r.name) ins outs).getattr lineAttrs n = .ok (.line l) := by
  obtain ⟨h1, h2, h3⟩ := library_attrs r hr n (List.mem_of_getElem? hn) hne
  obtain ⟨g, hg, -⟩ := numberLines_map ins
  have h4 : get? (instAttrs (inGen (libChain r.name)).lines ins) n = none := by
    rw [hg, instAttrs_map, get?_dmap, hi, h3]
    rfl
  have h5 := (C90_same_line (libChain r.name) ins outs hl hn hv).1
  have h6 : (IndObj.ofCall (libChain r.name) ins outs).outputs.hasattr n = .ok true := by
    simp only [LinesObj.hasattr, h5]
  rw [IndObj.getattr, if_neg h1]
  rw [show get? (instAttrs (IndObj.ofCall (libChain r.name) ins outs).inSlots (IndObj.ofCall (libChain r.name) ins outs).ins) n
    = none from h4]
  simp only [if_neg h2, h6, h5]

/-- Non-vacuity: the output `d` of the stochastic, although `d` is a name of the inputs while the initialisers run. -/
example : (IndObj.ofCall (libChain "stochastic") [⟨[1], 1⟩, ⟨[2], 1⟩, ⟨[3], 1⟩] [⟨[4], 1⟩, ⟨[5], 1⟩]).getattr [] "d" =
    .ok (.line (⟨[5], 1⟩ : Line Nat)) := by decide +kernel

/-- Not so for `add`, `sub`, `div`: the attribute is the operator of the same name (a method), not the output; all lines, all
inputs. -/
theorem C90_attribute_negation (lineAttrs : List String) {n : String} (hn : n ∈ ["add", "sub", "div"]) (a b l : Line V) :
    (outGen (libChain n)).lines = [n] ∧ (IndObj.ofCall (libChain n) [a, b] [l]).getattr lineAttrs n = .ok .other ∧
      (IndObj.ofCall (libChain n) [a, b] [l]).getitem (.str n) = .ok l := by
  have h0 : ∀ n ∈ ["add", "sub", "div"], (outGen (libChain n)).lines = [n] ∧ n ∉ ["size", "df", "series"] ∧ n ∈ classNames ∧
      get? (instAttrs (inGen (libChain n)).lines (numberLines 2)) n = none := by decide +kernel
  obtain ⟨h1, h2, h3, h4⟩ := h0 n hn
  obtain ⟨g, hg, -⟩ := numberLines_map [a, b]
  have h5 : get? (instAttrs (inGen (libChain n)).lines [a, b]) n = none := by
    rw [hg, instAttrs_map, get?_dmap]
    rw [show [a, b].length = 2 from rfl, h4]
    rfl
  refine ⟨h1, ?_, ?_⟩
  · rw [IndObj.getattr, if_neg h2]
    rw [show get? (instAttrs (IndObj.ofCall (libChain n) [a, b] [l]).inSlots (IndObj.ofCall (libChain n) [a, b] [l]).ins) n
      = none from h5]
    simp only [if_pos h3]
  · exact (C90_same_line (libChain n) [a, b] [l] (by simp [h1]) (k := 0) (by simp [h1]) rfl).2.1

set_option maxRecDepth 100000 in
theorem library_inputs : ∀ r ∈ library, ∀ k < (inGen (libChain r.name)).lines.length, ∀ q ∈ ["i", "input"],
    q ++ toString k ∉ ["size", "df", "series"] ∧
    get? (instAttrs (inGen (libChain r.name)).lines (numberLines (inGen (libChain r.name)).lines.length)) (q ++ toString k) =
      some (.line ⟨[k], 1⟩) := by
  decide +kernel

/-- `ind.i0`, `ind.input0`, `ind.i1`, ... are the inputs by position, for every indicator of the library. -/
theorem C90_inputs (lineAttrs : List String) {r : Row} (hr : r ∈ library) (ins outs : List (Line V))
    (hi : ins.length = (inGen (libChain r.name)).lines.length) {k : Nat} {l : Line V} (hk : ins[k]? = some l) :
    (IndObj.ofCall (libChain r.name) ins outs).getattr lineAttrs ("i" ++ toString k) = .ok (.line l) ∧
      (IndObj.ofCall (libChain r.name) ins outs).getattr lineAttrs ("input" ++ toString k) = .ok (.line l) := by
  obtain ⟨g, hg, hg2⟩ := numberLines_map ins
  have hk' : k < (inGen (libChain r.name)).lines.length := by
    rw [← hi]; exact (List.getElem?_eq_some_iff.1 hk).1
  have key : ∀ q ∈ ["i", "input"], (IndObj.ofCall (libChain r.name) ins outs).getattr lineAttrs (q ++ toString k) = .ok (.line l) := by
    intro q hq
    obtain ⟨h1, h2⟩ := library_inputs r hr k hk' q hq
    have h3 : get? (instAttrs (inGen (libChain r.name)).lines ins) (q ++ toString k) = some (.line l) := by
      rw [hg, instAttrs_map, get?_dmap, hi, h2]
      simp [AVal.mapL, hg2 k l hk]
    rw [IndObj.getattr, if_neg h1]
    rw [show get? (instAttrs (IndObj.ofCall (libChain r.name) ins outs).inSlots (IndObj.ofCall (libChain r.name) ins outs).ins)
      (q ++ toString k) = some (.line l) from h3]
  exact ⟨key "i" (by simp), key "input" (by simp)⟩

/-- Hence for the operators with two inputs, which are declared as `input1` and `input2`, the attribute `input1` is the second of
them (and there is no attribute `input2`). -/
theorem C90_input1_negation (lineAttrs : List String) (h : "input2" ∉ lineAttrs) (a b l : Line V) :
    (inGen (libChain "add")).lines = ["input1", "input2"] ∧
      (IndObj.ofCall (libChain "add") [a, b] [l]).getattr lineAttrs "input1" = .ok (.line b) ∧
      (IndObj.ofCall (libChain "add") [a, b] [l]).getattr lineAttrs "input2" = .error .attributeError := by
  have h0 : (inGen (libChain "add")).lines = ["input1", "input2"] ∧ (outGen (libChain "add")) = ⟨["add"], []⟩ ∧
      get? (instAttrs (inGen (libChain "add")).lines (numberLines 2)) "input2" = none := by decide +kernel
  obtain ⟨r, hr, hr2⟩ : ∃ r ∈ library, r.name = "add" := by decide +kernel
  refine ⟨h0.1, ?_, ?_⟩
  · have := (C90_inputs lineAttrs hr [a, b] [l] (by rw [hr2, h0.1]; rfl) (k := 1) rfl).2
    rw [hr2] at this
    exact this
  · obtain ⟨g, hg, -⟩ := numberLines_map [a, b]
    have h5 : get? (instAttrs (inGen (libChain "add")).lines [a, b]) "input2" = none := by
      rw [hg, instAttrs_map, get?_dmap]
      rw [show [a, b].length = 2 from rfl, h0.2.2]
      rfl
    rw [IndObj.getattr, if_neg (by decide)]
    rw [show get? (instAttrs (IndObj.ofCall (libChain "add") [a, b] [l]).inSlots (IndObj.ofCall (libChain "add") [a, b] [l]).ins)
      "input2" = none from h5]
    have e : (IndObj.ofCall (libChain "add") [a, b] [l]).outputs = ⟨⟨["add"], []⟩, [("add", l)]⟩ := by
      simp [IndObj.ofCall, h0.2.1]
    have h6 : (IndObj.ofCall (libChain "add") [a, b] [l]).outputs.hasattr "input2" = .ok false := by
      rw [e]
      rfl
    have h7 : (IndObj.ofCall (libChain "add") [a, b] [l]).outputs.getitem (.int 0) = .ok l := by
      rw [e]
      rfl
    simp only [if_neg (show "input2" ∉ classNames by decide), h6, h7, if_neg h]

set_option maxRecDepth 100000 in
theorem library_removed : ∀ r ∈ library, ∀ n ∈ ["l", "lines", "data", "datas"] ++
      (List.range (inGen (libChain r.name)).lines.length).flatMap (fun k => ["d", "data", "d_", "data_"].map (· ++ toString k)),
    n ∉ ["size", "df", "series"] ∧ n ∉ classNames ∧ n ∉ linesMembers ∧
    (outGen (libChain r.name)).resolve n = some n ∧ n ∉ (outGen (libChain r.name)).lines ∧
    get? (instAttrs (inGen (libChain r.name)).lines (numberLines (inGen (libChain r.name)).lines.length)) n = none := by
  decide +kernel

/-- The names under which the initialisers find inputs and outputs (`l`, `lines`, `data`, `datas`, `d0`, `data0`, `d_0`, ...) are gone
when the user gets the indicator: for every indicator of the library (with outputs) they are an AttributeError (unless a line has such an
attribute, to which indicators pass on). -/
theorem C90_removed (lineAttrs : List String) {r : Row} (hr : r ∈ library) (ins outs : List (Line V))
    (hi : ins.length = (inGen (libChain r.name)).lines.length) (hl : outs.length = (outGen (libChain r.name)).lines.length)
    (ho : 0 < outs.length) {n : String} (hn : n ∈ ["l", "lines", "data", "datas"] ∨
      ∃ k < ins.length, ∃ q ∈ ["d", "data", "d_", "data_"], n = q ++ toString k) (ha : n ∉ lineAttrs) :
    (IndObj.ofCall (libChain r.name) ins outs).getattr lineAttrs n = .error .attributeError := by
  have hn' : n ∈ ["l", "lines", "data", "datas"] ++
      (List.range (inGen (libChain r.name)).lines.length).flatMap (fun k => ["d", "data", "d_", "data_"].map (· ++ toString k)) := by
    rcases hn with h | ⟨k, hk, q, hq, rfl⟩
    · exact List.mem_append_left _ h
    · refine List.mem_append_right _ (List.mem_flatMap.2 ⟨k, List.mem_range.2 (by omega), List.mem_map.2 ⟨q, hq, rfl⟩⟩)
  obtain ⟨h1, h2, h3, h5, h6, h7⟩ := library_removed r hr n hn'
  have h4 : 0 < (outGen (libChain r.name)).lines.length := by omega
  obtain ⟨g, hg, -⟩ := numberLines_map ins
  have h8 : get? (instAttrs (inGen (libChain r.name)).lines ins) n = none := by
    rw [hg, instAttrs_map, get?_dmap, hi, h7]
    rfl
  have h9 : (IndObj.ofCall (libChain r.name) ins outs).outputs.hasattr n = .ok false := by
    have : get? ((outGen (libChain r.name)).lines.zip outs) n = none := by
      rw [get?_eq_none_iff]
      intro h
      obtain ⟨p, hp, hpn⟩ := List.mem_map.1 h
      rw [← hpn] at h6
      exact h6 (List.of_mem_zip hp).1
    simp only [LinesObj.hasattr, LinesObj.getattr, IndObj.ofCall, LGen.getattr, h5, this, if_neg h3]
  have h10 := (C90_same_line (libChain r.name) ins outs hl (k := 0) (List.getElem?_eq_getElem h4)
    (List.getElem?_eq_getElem (by omega))).2.2.1
  rw [IndObj.getattr, if_neg h1]
  rw [show get? (instAttrs (IndObj.ofCall (libChain r.name) ins outs).inSlots (IndObj.ofCall (libChain r.name) ins outs).ins) n
    = none from h8]
  simp only [if_neg h2, h9]
  rw [show (IndObj.ofCall (libChain r.name) ins outs).outputs.getitem (.int 0) = _ from h10]
  simp only [if_neg ha]

/-- Non-vacuity: `sma(...).data` and `stochastic(...).d0` -/
example : (IndObj.ofCall (libChain "sma") [⟨[1], 1⟩] [(⟨[4], 1⟩ : Line Nat)]).getattr ["max"] "data" = .error .attributeError ∧
    (IndObj.ofCall (libChain "stochastic") [⟨[1], 1⟩, ⟨[2], 1⟩, ⟨[3], 1⟩] [⟨[4], 1⟩, (⟨[5], 1⟩ : Line Nat)]).getattr ["max"] "d0"
      = .error .attributeError := by decide +kernel

/-- `outputs._get(name, default)`: the line of an output; the default for a name which is nothing at all; but an error while
looking the name up which is no AttributeError (a remapping which goes round in circles) is not hidden. -/
theorem C90_get (c : List Row) (ins outs : List (Line V)) (hl : outs.length = (outGen c).lines.length) (dflt : AVal V) :
    let o := (IndObj.ofCall c ins outs).outputs
    (∀ (k : Nat) (n : String) (l : Line V), (outGen c).lines[k]? = some n → outs[k]? = some l → o.get n dflt = .ok (.line l)) ∧
      (∀ n, o.getattr n = .error .attributeError → o.get n dflt = .ok dflt) ∧
      (∀ n, (outGen c).resolve n = none → o.get n dflt = .error .recursionError) := by
  refine ⟨fun k n l hn hv => ?_, fun n h => ?_, fun n h => ?_⟩
  · have := (C90_same_line c ins outs hl hn hv).1
    simp only [LinesObj.get, this]
  · simp only [LinesObj.get, h]
  · simp only [IndObj.ofCall, LinesObj.get, LinesObj.getattr, LGen.getattr, h]

/-- Non-vacuity: an output, and a name which is none -/
example : (IndObj.ofCall (libChain "sma") [⟨[1], 1⟩] [(⟨[4], 1⟩ : Line Nat)]).outputs.get "sma" .other = .ok (.line ⟨[4], 1⟩) ∧
    (IndObj.ofCall (libChain "sma") [⟨[1], 1⟩] [(⟨[4], 1⟩ : Line Nat)]).outputs.get "ema" (.name "x") = .ok (.name "x") := by
  decide +kernel
/-- and a remapping in circles -/
example : (LinesObj.mk ⟨["y"], [("y", "x"), ("x", "y")]⟩ [("y", (⟨[4], 1⟩ : Line Nat))]).get "x" .other = .error .recursionError := by
  decide +kernel

/-! ### Assigning outputs -/

/-- After `ind.outputs.name = line` the output is the line, wherever it is read in the outputs, and all others are what they were. -/
theorem C90_write_read (c : List Row) (ins outs : List (Line V)) (hl : outs.length = (outGen c).lines.length)
    {n m : String} (hn : n ∈ (outGen c).lines) (hm : m ∈ (outGen c).lines) (l : Line V) :
    ((IndObj.ofCall c ins outs).setOutput n l).getitem (.str m) =
      if n = m then .ok l else (IndObj.ofCall c ins outs).getitem (.str m) := by
  have hs := outGen_sound c
  have e : (IndObj.ofCall c ins outs).setOutput n l =
      { IndObj.ofCall c ins outs with outputs := ⟨outGen c, Py.set ((outGen c).lines.zip outs) n l⟩ } := by
    simp only [IndObj.setOutput, IndObj.ofCall, LGen.setattr, LGen.resolve_direct (hs.direct n hn), Option.map_some]
  obtain ⟨k, hk⟩ := index?_isSome hm
  have hk1 := (index?_some hk).1
  rw [e]
  simp only [IndObj.getitem, IndObj.ofCall, LinesObj.getitem, hk, hk1, LGen.getattr, LGen.resolve_direct (hs.direct m hm), get?_set]
  by_cases h : n = m <;> simp [h]

/-- The same by position: after `ind.outputs[k] = line` position `k` has the line, and each other position has what it had. -/
theorem C90_write_position (c : List Row) (ins outs : List (Line V)) {k : Nat} (hk : k < (outGen c).lines.length) (l : Line V) :
    ∃ o : LinesObj V, (IndObj.ofCall c ins outs).outputs.setitem k l = .ok o ∧ o.getitem (.int k) = .ok l ∧
      ∀ j : Nat, j < (outGen c).lines.length → j ≠ k →
        o.getitem (.int j) = (IndObj.ofCall c ins outs).outputs.getitem (.int j) := by
  have hs := outGen_sound c
  have hp : ∀ j (hj : j < (outGen c).lines.length), pyGet (outGen c).lines (j : Int) = some (outGen c).lines[j] := by
    intro j hj
    simp [pyGet, hj]
  have hd : ∀ j (hj : j < (outGen c).lines.length), (outGen c).resolve (outGen c).lines[j] = some (outGen c).lines[j] :=
    fun j hj => LGen.resolve_direct (hs.direct _ (List.getElem_mem hj))
  refine ⟨⟨outGen c, Py.set ((outGen c).lines.zip outs) (outGen c).lines[k] l⟩, ?_, ?_, ?_⟩
  · simp only [IndObj.ofCall, LinesObj.setitem, hp k hk, LGen.setattr, hd k hk, Option.map_some]
  · simp only [LinesObj.getitem, hp k hk, LGen.getattr, hd k hk, get?_set, if_true]
  · intro j hj hne
    have : (outGen c).lines[k] ≠ (outGen c).lines[j] := fun e => hne ((hs.nodup.getElem_inj_iff).1 e).symm
    simp only [IndObj.ofCall, LinesObj.getitem, hp j hj, LGen.getattr, hd j hj, get?_set, if_neg this]

/-- Non-vacuity: the second output of the stochastic. -/
example : 1 < (outGen (libChain "stochastic")).lines.length := by decide +kernel

/-- But a frame which was read before is not made anew: it keeps the old values (`ind.df` of any indicator, whatever is assigned
in between). -/
theorem C90_stale_frame_negation (x : IndObj V) (d : List (String × List V)) (h : x.readDf.1 = .ok d) (n : String) (l : Line V) :
    (x.readDf.2.setOutput n l).readDf.1 = .ok d := by
  have h1 : x.readDf.2.df = some d := by
    unfold IndObj.readDf at h ⊢
    cases hx : x.df with
    | some d' =>
      simp only [hx] at h ⊢
      exact congrArg some (Except.ok.inj h)
    | none =>
      cases hf : frameOf x.outputs with
      | ok d' =>
        simp only [hx, hf] at h ⊢
        exact congrArg some (Except.ok.inj h)
      | error e =>
        simp only [hx, hf] at h
        cases h
  have h2 : (x.readDf.2.setOutput n l).df = some d := by
    unfold IndObj.setOutput
    split <;> exact h1
  generalize x.readDf.2.setOutput n l = y at h2
  simp only [IndObj.readDf, h2]

/-- Without reading the frame before, it has the new values. -/
example : ((IndObj.ofCall (libChain "sma") [⟨[1], 1⟩] [(⟨[4], 1⟩ : Line Nat)]).setOutput "sma" ⟨[7], 1⟩).readDf.1 =
    .ok [("sma", [7])] ∧
    ((IndObj.ofCall (libChain "sma") [⟨[1], 1⟩] [(⟨[4], 1⟩ : Line Nat)]).readDf.2.setOutput "sma" ⟨[7], 1⟩).readDf.1 =
    .ok [("sma", [4])] := by decide +kernel

/-! ### `in` and slices -/

/-- `name in ind` holds for every output. -/
theorem C90_contains (c : List Row) (ins outs : List (Line V)) (hl : outs.length = (outGen c).lines.length) {n : String}
    (hn : n ∈ (outGen c).lines) : (IndObj.ofCall c ins outs).contains n = .ok true := by
  obtain ⟨k, hk⟩ := List.getElem?_of_mem hn
  have hlt : k < outs.length := by rw [hl]; exact (List.getElem?_eq_some_iff.1 hk).1
  have := (C90_same_line c ins outs hl hk (List.getElem?_eq_getElem hlt)).1
  simp only [IndObj.contains, LinesObj.hasattr, this]

/-- But also for names which are none (`size`, `keys`), and which are an error as an item: for every indicator with no output of
such a name, which all of the library are. -/
theorem C90_contains_negation (c : List Row) (ins outs : List (Line V)) {n : String} (hn : n ∈ ["size", "keys"])
    (h1 : n ∉ (outGen c).lines) (h2 : n ∉ (outGen c).mappings.map Prod.snd) :
    (IndObj.ofCall c ins outs).contains n = .ok true ∧ (IndObj.ofCall c ins outs).getitem (.str n) = .error .valueError := by
  refine ⟨?_, (C90_unknown c ins outs).2 n h1⟩
  have hm : n ∈ linesMembers := by
    have : ∀ n ∈ ["size", "keys"], n ∈ linesMembers := by decide
    exact this n hn
  have : get? ((outGen c).lines.zip outs) n = none := by
    rw [get?_eq_none_iff]
    intro h
    obtain ⟨p, hp, hpn⟩ := List.mem_map.1 h
    have := (List.of_mem_zip hp).1
    rw [hpn] at this
    exact h1 this
  have h3 : (outGen c).getattr ((outGen c).lines.zip outs) n = .error .attributeError := by
    simp only [LGen.getattr, LGen.resolve_direct h2, this]
  simp only [IndObj.contains, LinesObj.hasattr, LinesObj.getattr, IndObj.ofCall, h3, if_pos hm]

set_option maxRecDepth 100000 in
example : ∀ r ∈ library, ∀ n ∈ ["size", "keys"], n ∉ (outGen (libChain r.name)).lines ∧
    n ∉ (outGen (libChain r.name)).mappings.map Prod.snd := by decide +kernel

/-- Slices of the outputs are an error, although the comment in the code announces them. -/
theorem C90_slice_negation (x : IndObj V) (i j : Int) : x.getitem (.slice i j) = .error .typeError := rfl

end Bta.Meta
