import Verif.Meta.Inputs

/-!
# Binding of arguments to inputs (C49, C50, C51, C80)
-/

set_option linter.unusedSectionVars false
set_option linter.unusedVariables false

namespace Bta.Meta

open Py

/-! ## Lemmas -/

theorem takeIdx_ok {free free' : List Int} {i j : Int} (h : takeIdx free i = .ok (j, free')) :
    j ∈ free ∧ free.length = free'.length + 1 ∧ (free.Nodup → free'.Nodup ∧ j ∉ free') ∧ (∀ x ∈ free', x ∈ free) ∧
      (i ∈ free → j = i) ∧ (∀ x ∈ free, x ≠ j → x ∈ free') := by
  unfold takeIdx at h
  cases hr : remove? free i with
  | some f =>
    simp only [hr, Except.ok.injEq, Prod.mk.injEq] at h
    obtain ⟨rfl, rfl⟩ := h
    obtain ⟨h1, h2, h3⟩ := remove?_some hr
    refine ⟨h1, h2, ?_, ?_, fun _ => rfl, ?_⟩
    · intro hn
      subst h3
      exact ⟨hn.erase _, fun hm => (hn.mem_erase_iff.1 hm).1 rfl⟩
    · intro x hx
      subst h3
      exact List.mem_of_mem_erase hx
    · intro x hx hne
      subst h3
      exact (List.mem_erase_of_ne hne).2 hx
  | none =>
    simp only [hr] at h
    have hni := remove?_none.1 hr
    unfold pop? at h
    cases hl : free.getLast? with
    | none => simp [hl] at h
    | some x =>
      simp only [hl, Option.map_some, Except.ok.injEq, Prod.mk.injEq] at h
      obtain ⟨rfl, rfl⟩ := h
      have hne : free ≠ [] := by rintro rfl; simp at hl
      have hx : free.getLast hne = x := by
        rw [List.getLast?_eq_some_getLast hne] at hl
        simpa using hl
      have hd : free = free.dropLast ++ [x] := by rw [← hx]; exact (List.dropLast_append_getLast hne).symm
      refine ⟨?_, ?_, ?_, ?_, fun hi => absurd hi hni, ?_⟩
      · rw [hd]; simp
      · have := congrArg List.length hd
        simpa using this
      · intro hn
        rw [hd, List.nodup_append] at hn
        exact ⟨hn.1, fun hm => hn.2.2 x hm x (by simp) rfl⟩
      · intro y hy
        rw [hd]; simp [hy]
      · intro y hy hne
        rw [hd] at hy
        simpa [hne] using hy

theorem takeIdx_total {free : List Int} (i : Int) (h : 0 < free.length) : ∃ r, takeIdx free i = .ok r := by
  unfold takeIdx
  cases remove? free i with
  | some f => exact ⟨_, rfl⟩
  | none =>
    unfold pop?
    cases hl : free.getLast? with
    | none => rw [List.getLast?_eq_none_iff] at hl; subst hl; simp at h
    | some x => exact ⟨_, rfl⟩

theorem configIdx_cases (cfg : Config) (cols : List String) (inp : String) :
    (∃ i, configIdx cfg cols inp = .ok i) ∨
      ∃ s, get? cfg.indices inp = some (.str s) ∧ s ∉ cols ∧ configIdx cfg cols inp = .error (.colIdxStrNotFound inp s) := by
  unfold configIdx
  cases h : get? cfg.indices inp with
  | none => exact Or.inl ⟨_, rfl⟩
  | some r =>
    cases r with
    | num i => exact Or.inl ⟨_, rfl⟩
    | str s =>
      cases hs : index? cols s with
      | some i => left; exact ⟨i, by simp [hs]⟩
      | none => right; exact ⟨s, rfl, index?_none.1 hs, by simp [hs]⟩

theorem wantedIdx_cases (cfg : Config) (cols : List String) (free : List Int) (inp : String) :
    (∃ i, wantedIdx cfg cols free inp = .ok i) ∨
      ∃ s, get? cfg.indices inp = some (.str s) ∧ s ∉ cols ∧ wantedIdx cfg cols free inp = .error (.colIdxStrNotFound inp s) := by
  unfold wantedIdx
  rcases configIdx_cases cfg cols inp with ⟨c, hc⟩ | ⟨s, h1, h2, h3⟩
  · left
    cases cfg.ohlcFirst <;> simp only [hc, if_true, if_false, Bool.false_eq_true] <;>
      simp only [bind, Except.bind] <;> split <;> (try exact ⟨_, rfl⟩) <;> split <;> exact ⟨_, rfl⟩
  · cases cfg.ohlcFirst
    · simp only [Bool.false_eq_true, if_false, bind, Except.bind]
      by_cases hf : (-1 : Int) ∈ free
      · left; exact ⟨_, by rw [if_pos hf]⟩
      · rw [if_neg hf]
        cases hi : index? cols inp with
        | some j => exact Or.inl ⟨_, rfl⟩
        | none => exact Or.inr ⟨s, h1, h2, h3⟩
    · right
      exact ⟨s, h1, h2, by simp only [if_true, h3, bind, Except.bind]⟩

theorem bindLoop_ok (cfg : Config) (cols : List String) {inps : List String} {free idx : List Int}
    (h : bindLoop cfg cols inps free = .ok idx) :
    idx.length = inps.length ∧ (∀ i ∈ idx, i ∈ free) ∧ (free.Nodup → idx.Nodup) := by
  induction inps generalizing free idx with
  | nil =>
    simp only [bindLoop, Except.ok.injEq] at h
    subst h
    simp
  | cons inp inps ih =>
    simp only [bindLoop, bind, Except.bind] at h
    cases hw : wantedIdx cfg cols free inp with
    | error e => simp [hw] at h
    | ok i =>
      simp only [hw] at h
      cases ht : takeIdx free i with
      | error e => simp [ht] at h
      | ok r =>
        obtain ⟨j, free'⟩ := r
        simp only [ht] at h
        cases hb : bindLoop cfg cols inps free' with
        | error e => simp [hb] at h
        | ok rest =>
          simp only [hb, Except.ok.injEq] at h
          subst h
          obtain ⟨h1, h2, h3, h4, _, _⟩ := takeIdx_ok ht
          obtain ⟨k1, k2, k3⟩ := ih hb
          refine ⟨by simp [k1], ?_, ?_⟩
          · intro x hx
            rcases List.mem_cons.1 hx with rfl | hx
            · exact h1
            · exact h4 _ (k2 _ hx)
          · intro hn
            rw [List.nodup_cons]
            exact ⟨fun hm => (h3 hn).2 (k2 _ hm), k3 (h3 hn).1⟩

theorem bindLoop_cases (cfg : Config) (cols : List String) (inps : List String) (free : List Int)
    (h : inps.length ≤ free.length) :
    (∃ idx, bindLoop cfg cols inps free = .ok idx) ∨
      ∃ inp s, inp ∈ inps ∧ get? cfg.indices inp = some (.str s) ∧ s ∉ cols ∧
        bindLoop cfg cols inps free = .error (.colIdxStrNotFound inp s) := by
  induction inps generalizing free with
  | nil => exact Or.inl ⟨[], rfl⟩
  | cons inp inps ih =>
    simp only [bindLoop, bind, Except.bind]
    rcases wantedIdx_cases cfg cols free inp with ⟨i, hi⟩ | ⟨s, h1, h2, h3⟩
    · rw [hi]
      simp only []
      obtain ⟨⟨j, free'⟩, hr⟩ := takeIdx_total i (by simp at h; omega : 0 < free.length)
      rw [hr]
      simp only []
      have hl := (takeIdx_ok hr).2.1
      rcases ih free' (by simp at h; omega) with ⟨idx, hb⟩ | ⟨inp', s, m1, m2, m3, m4⟩
      · exact Or.inl ⟨j :: idx, by rw [hb]⟩
      · exact Or.inr ⟨inp', s, List.mem_cons_of_mem _ m1, m2, m3, by rw [m4]⟩
    · exact Or.inr ⟨inp, s, List.mem_cons_self .., h1, h2, by rw [h3]⟩

theorem mem_colIndices {n : Nat} {i : Int} : i ∈ colIndices n ↔ 0 ≤ i ∧ i < n := by
  unfold colIndices
  simp only [List.mem_map, List.mem_reverse, List.mem_range]
  constructor
  · rintro ⟨a, h, rfl⟩
    simp; omega
  · rintro ⟨h1, h2⟩
    exact ⟨i.toNat, by omega, by simp; omega⟩

theorem nodup_colIndices (n : Nat) : (colIndices n).Nodup := by
  unfold colIndices
  refine (List.nodup_reverse.2 List.nodup_range).map (fun a b h => ?_)
  simpa using h

theorem length_colIndices (n : Nat) : (colIndices n).length = n := by simp [colIndices]

/-! ## C49: the columns of a DataFrame are assigned without duplication -/

/-- C49.  For all column names, inputs and configurations with enough columns: either the documented error for a
configured column name which does not exist is raised, or each input gets a column number which exists, no two inputs
the same. -/
theorem C49_columns (cfg : Config) (cols inputs : List String) (h : inputs.length ≤ cols.length) :
    (∃ inp s, inp ∈ inputs ∧ get? cfg.indices inp = some (.str s) ∧ s ∉ cols ∧
        dataframeColumns cfg true cols inputs = .error (.colIdxStrNotFound inp s)) ∨
    ∃ idx, dataframeColumns cfg true cols inputs = .ok idx ∧ idx.length = inputs.length ∧ idx.Nodup ∧
      ∀ i ∈ idx, 0 ≤ i ∧ i < (cols.length : Int) := by
  have e : dataframeColumns cfg true cols inputs = bindLoop cfg cols inputs (colIndices cols.length) := by
    unfold dataframeColumns
    rw [if_neg (by simp), if_neg (by omega)]
  rw [e]
  rcases bindLoop_cases cfg cols inputs (colIndices cols.length) (by rw [length_colIndices]; exact h) with ⟨idx, hi⟩ | hx
  · right
    obtain ⟨h1, h2, h3⟩ := bindLoop_ok cfg cols hi
    exact ⟨idx, hi, h1, h3 (nodup_colIndices _), fun i hm => mem_colIndices.1 (h2 i hm)⟩
  · exact Or.inl hx

/-- Too few columns are rejected with the documented error, and so is a DataFrame inside of another indicator. -/
theorem C49_rejects (cfg : Config) (cols inputs : List String) :
    (cols.length < inputs.length → dataframeColumns cfg true cols inputs = .error .multiDimSmall) ∧
    dataframeColumns cfg false cols inputs = .error .pandasNotTopStack := by
  unfold dataframeColumns
  exact ⟨fun h => by rw [if_neg (by simp), if_pos h], by rw [if_pos (by simp)]⟩

variable {V : Type}

theorem iloc_ok (df : Frame V) {i : Int} (h0 : 0 ≤ i) (h1 : i < df.cols.length) :
    ∃ c, df.cols[i.toNat]? = some c ∧ df.iloc i = .ok c.2 := by
  have hl : i.toNat < df.cols.length := by omega
  refine ⟨df.cols[i.toNat], by rw [List.getElem?_eq_getElem hl], ?_⟩
  unfold Frame.iloc
  simp only []
  rw [if_neg (by omega : ¬ i < 0), if_pos ⟨h0, h1⟩, List.getElem?_eq_getElem hl]

/-- The lines which the columns `idx` of `df` give (a missing column does not occur, see `C49_frame`). -/
def frameLines (df : Frame V) (idx : List Int) : List (Line V) :=
  idx.map (fun i => Line.ofSeries ((df.cols[i.toNat]?.map Prod.snd).getD []))

theorem fromFrame_mapM (df : Frame V) (inputs : List String) (idx : List Int) (hl : idx.length = inputs.length)
    (hb : ∀ i ∈ idx, 0 ≤ i ∧ i < (df.cols.length : Int)) :
    (inputs.zip idx).mapM (fun p => (do
      let xs ← df.iloc p.2
      .ok (p.1, Line.ofSeries xs) : Except Err (String × Line V))) = .ok (inputs.zip (frameLines df idx)) := by
  induction inputs generalizing idx with
  | nil => rfl
  | cons n ns ih =>
    cases idx with
    | nil => simp at hl
    | cons i is =>
      obtain ⟨c, hc, hi⟩ := iloc_ok df (hb i (by simp)).1 (hb i (by simp)).2
      rw [List.zip_cons_cons, List.mapM_cons, ih is (by simpa using hl) (fun j hj => hb j (by simp [hj]))]
      simp only [hi, frameLines, List.map_cons, List.zip_cons_cons, hc, Option.map_some, Option.getD_some]
      rfl

theorem get?_zip_nodup {β : Type} {ns : List String} (hn : ns.Nodup) (ls : List β) (hl : ls.length = ns.length) :
    ∀ k (h : k < ns.length), get? (ns.zip ls) ns[k] = some (ls[k]'(by omega)) := by
  intro k h
  apply mem_get?_of_nodup
  · unfold keys
    rw [List.map_fst_zip (by omega)]
    exact hn
  · rw [List.mem_iff_getElem]
    exact ⟨k, by simp; omega, by simp⟩

theorem slots_mapM {ns : List String} (hn : ns.Nodup) (ls : List (Line V)) (hl : ls.length = ns.length)
    (d : Dict String (Line V)) (hd : ∀ k (h : k < ns.length), get? d ns[k] = some (ls[k]'(by omega))) :
    ns.mapM (fun s => match get? d s with
      | some l => Except.ok l
      | none => .error Err.attributeError) = .ok ls := by
  induction ns generalizing ls with
  | nil => cases ls with
    | nil => rfl
    | cons => simp at hl
  | cons n ns ih =>
    cases ls with
    | nil => simp at hl
    | cons l ls =>
      have h0 := hd 0 (by simp)
      simp only [List.getElem_cons_zero] at h0
      rw [List.mapM_cons, h0, ih (List.nodup_cons.1 hn).2 ls (by simpa using hl)]
      · rfl
      · intro k h
        have := hd (k + 1) (by simpa using h)
        simpa using this

/-- The last step of `bindInputs` for the attributes `d`. -/
theorem finish_ok (inputs : List String) (allow : Nat) (rest : List (Arg V)) (d : Dict String (Line V)) (ls : List (Line V))
    (hm : inputs.mapM (fun s => match get? d s with
      | some l => Except.ok l
      | none => .error Err.attributeError) = .ok ls) (h1 : 1 ≤ ls.length) :
    (do
      let ls ← inputLines (⟨d, rest, InCls.fresh inputs allow⟩ : Bound V)
      match ls with
      | [] => .error .indexError
      | _ => .ok (ls, rest, InCls.fresh inputs allow)) = Except.ok (ls, rest, InCls.fresh inputs allow) := by
  have : inputLines (⟨d, rest, InCls.fresh inputs allow⟩ : Bound V) = .ok ls := hm
  rw [this]
  cases ls with
  | nil => simp at h1
  | cons => rfl

theorem bindInputs_frame (cfg : Config) (low : String → String) (top : Bool) (inputs : List String) (allow : Nat)
    (df : Frame V) (h2 : 2 ≤ inputs.length) :
    bindInputs cfg low top (InCls.fresh inputs allow) [.frame df] = (do
      let d ← fromFrame cfg low top df inputs
      let ls ← inputLines (⟨d, [], InCls.fresh inputs allow⟩ : Bound V)
      match ls with
      | [] => .error .indexError
      | _ => .ok (ls, [], InCls.fresh inputs allow)) := by
  have hcond : ¬ inputs.length ≤ [Arg.frame df].length := by simp; omega
  have : fromArgs cfg low top (InCls.fresh inputs allow) [.frame df] =
      (do let d ← fromFrame cfg low top df inputs; .ok ⟨d, [], InCls.fresh inputs allow⟩) := if_neg hcond
  unfold bindInputs
  rw [this]
  cases fromFrame cfg low top df inputs <;> rfl

theorem bindInputs_holder (cfg : Config) (low : String → String) (top : Bool) (inputs : List String) (allow : Nat)
    (outs : List (Line V)) (h2 : 2 ≤ inputs.length) :
    bindInputs cfg low top (InCls.fresh inputs allow) [.holder outs] = (do
      let d ← fromHolder outs inputs
      let ls ← inputLines (⟨d, [], InCls.fresh inputs allow⟩ : Bound V)
      match ls with
      | [] => .error .indexError
      | _ => .ok (ls, [], InCls.fresh inputs allow)) := by
  have hcond : ¬ inputs.length ≤ [Arg.holder outs].length := by simp; omega
  have : fromArgs cfg low top (InCls.fresh inputs allow) [.holder outs] =
      (do let d ← fromHolder outs inputs; .ok ⟨d, [], InCls.fresh inputs allow⟩) := if_neg hcond
  unfold bindInputs
  rw [this]
  cases fromHolder outs inputs <;> rfl

theorem fromHolder_few (l : Line V) (ls : List (Line V)) (inputs : List String) (h : l.series.length < inputs.length) :
    fromHolder (l :: ls) inputs = .error .multiDimSmall := if_pos h

theorem fromHolder_ok (l : Line V) (ls : List (Line V)) (inputs : List String) (h : inputs.length ≤ l.series.length) :
    fromHolder (l :: ls) inputs = .ok (inputs.zip (l :: ls)) := if_neg (by omega : ¬ l.series.length < inputs.length)

/-- C49 for the whole call: an indicator with several inputs which gets a single DataFrame with enough columns at the
top level either raises the documented error, or its inputs are distinct columns of the DataFrame, each with minimum
period 1. -/
theorem C49_frame (cfg : Config) (low : String → String) (inputs : List String) (allow : Nat) (df : Frame V)
    (hn : inputs.Nodup) (h2 : 2 ≤ inputs.length) (h : inputs.length ≤ df.cols.length) :
    (∃ inp s, inp ∈ inputs ∧ get? cfg.indices inp = some (.str s) ∧ s ∉ df.cols.map (fun c => low c.1) ∧
      bindInputs cfg low true (InCls.fresh inputs allow) [.frame df] = .error (.colIdxStrNotFound inp s)) ∨
    ∃ idx : List Nat, idx.length = inputs.length ∧ idx.Nodup ∧ (∀ i ∈ idx, i < df.cols.length) ∧
      ∃ ls, bindInputs cfg low true (InCls.fresh inputs allow) [.frame df] = .ok (ls, [], InCls.fresh inputs allow) ∧
        ls.length = inputs.length ∧
        ∀ k (hk : k < idx.length), ∃ c, df.cols[idx[k]]? = some c ∧ ls[k]? = some ⟨c.2, 1⟩ := by
  have hc := C49_columns cfg (df.cols.map (fun c => low c.1)) inputs (by simpa using h)
  rw [bindInputs_frame cfg low true inputs allow df h2]
  rcases hc with ⟨inp, s, a1, a2, a3, a4⟩ | ⟨idx, b1, b2, b3, b4⟩
  · left
    refine ⟨inp, s, a1, a2, a3, ?_⟩
    simp only [fromFrame, a4, bind, Except.bind]
  · right
    have b4' : ∀ i ∈ idx, 0 ≤ i ∧ i < (df.cols.length : Int) := by simpa using b4
    refine ⟨idx.map Int.toNat, by simp [b2], ?_, ?_, frameLines df idx, ?_, by simp [frameLines, b2], ?_⟩
    · rw [List.Nodup, List.pairwise_map]
      refine b3.imp_of_mem (fun {a b} ha hb hab => ?_)
      have := (b4' a ha).1
      have := (b4' b hb).1
      intro e
      exact hab (by omega)
    · intro i hi
      obtain ⟨j, hj, rfl⟩ := List.mem_map.1 hi
      have := b4' j hj
      omega
    · have hm := fromFrame_mapM df inputs idx b2 b4'
      have : fromFrame cfg low true df inputs = .ok (inputs.zip (frameLines df idx)) := by
        unfold fromFrame
        rw [b1]
        exact hm
      rw [this]
      exact finish_ok inputs allow [] _ _ (slots_mapM hn (frameLines df idx) (by simp [frameLines, b2]) _
        (get?_zip_nodup hn _ (by simp [frameLines, b2]))) (by simp [frameLines, b2]; omega)
    · intro k hk
      simp only [List.length_map] at hk
      obtain ⟨hx0, hx1⟩ := b4' idx[k] (List.getElem_mem hk)
      have hl : idx[k].toNat < df.cols.length := by omega
      refine ⟨df.cols[idx[k].toNat], by simp [hl], ?_⟩
      rw [List.getElem?_eq_getElem (by simpa [frameLines] using hk)]
      simp [frameLines, hl, Line.ofSeries]

/-- The data set of the test-suite, whose columns are `Open High Low Close Volume OpenInterest`: all inputs of `mfi`. -/
example : dataframeColumns defaultConfig true ["open", "high", "low", "close", "volume", "openinterest"]
    ["high", "low", "close", "volume"] = .ok [1, 2, 3, 4] := by decide +kernel

example : dataframeColumns (defaultConfig.setInputIndices [("close", .str "adjclose")]) true
    ["o", "h", "l", "v"] ["high", "low", "close"] = .error (.colIdxStrNotFound "close" "adjclose") := by decide +kernel

/-! ## C50: an input whose name is a column gets this column -/

theorem bindLoop_named (cfg : Config) (hf : cfg.ohlcFirst = false) (cols : List String) {inps : List String}
    {free idx : List Int} (hneg : (-1 : Int) ∉ free) (h : bindLoop cfg cols inps free = .ok idx) {k : Nat} {n : String} {c : Nat}
    (hk : inps[k]? = some n) (hc : index? cols n = some c) (hcf : (c : Int) ∈ free) :
    idx[k]? = some (c : Int) ∨ ∃ j, j < k ∧ idx[j]? = some (c : Int) := by
  induction inps generalizing free idx k with
  | nil => simp at hk
  | cons inp inps ih =>
    simp only [bindLoop, bind, Except.bind] at h
    cases hw : wantedIdx cfg cols free inp with
    | error e => simp [hw] at h
    | ok i =>
      simp only [hw] at h
      cases ht : takeIdx free i with
      | error e => simp [ht] at h
      | ok r =>
        obtain ⟨j, free'⟩ := r
        simp only [ht] at h
        cases hb : bindLoop cfg cols inps free' with
        | error e => simp [hb] at h
        | ok rest =>
          simp only [hb, Except.ok.injEq] at h
          subst h
          obtain ⟨h1, h2, h3, h4, h5, h6⟩ := takeIdx_ok ht
          cases k with
          | zero =>
            simp only [List.getElem?_cons_zero, Option.some.injEq] at hk
            subst hk
            left
            simp only [wantedIdx, hf, Bool.false_eq_true, if_false, bind, Except.bind, if_neg hneg, hc, Except.ok.injEq] at hw
            subst hw
            simpa using h5 hcf
          | succ k =>
            by_cases hj : (c : Int) = j
            · right
              exact ⟨0, by omega, by simp [hj]⟩
            · rcases ih (fun hm => hneg (h4 _ hm)) hb (by simpa using hk) (h6 _ hcf hj) with h' | ⟨m, hm, h'⟩
              · left; simpa using h'
              · right; exact ⟨m + 1, by omega, by simpa using h'⟩

theorem dataframeColumns_eq {cfg : Config} {cols inputs : List String} {idx : List Int}
    (h : dataframeColumns cfg true cols inputs = .ok idx) : bindLoop cfg cols inputs (colIndices cols.length) = .ok idx := by
  unfold dataframeColumns at h
  rw [if_neg (by simp)] at h
  by_cases hl : cols.length < inputs.length
  · rw [if_pos hl] at h; cases h
  · rwa [if_neg hl] at h

/-- C50, what holds in general (the index-first mode being off): the column with the name of the input is used for this
input, unless an *earlier* input of the list took it before.  What is missing for C50 is exactly the last case, see
`C50_stolen`. -/
theorem C50_named_or_taken_partial (cfg : Config) (hf : cfg.ohlcFirst = false) (cols inputs : List String) (idx : List Int)
    (h : dataframeColumns cfg true cols inputs = .ok idx) (k : Nat) (n : String) (c : Nat)
    (hk : inputs[k]? = some n) (hc : index? cols n = some c) :
    idx[k]? = some (c : Int) ∨ ∃ j, j < k ∧ idx[j]? = some (c : Int) := by
  refine bindLoop_named cfg hf cols (by rw [mem_colIndices]; omega) (dataframeColumns_eq h) hk hc ?_
  rw [mem_colIndices]
  have := index?_lt hc
  omega

/-- C50 if the inputs before it are all found by name as well (in particular if all the inputs are): the input gets the
first column which has its name, whatever the order of the columns. -/
theorem C50_by_name_partial (cfg : Config) (hf : cfg.ohlcFirst = false) (cols inputs : List String) (idx : List Int)
    (hn : inputs.Nodup) (h : dataframeColumns cfg true cols inputs = .ok idx) (k : Nat) (n : String)
    (hk : inputs[k]? = some n) (hin : ∀ j n', j ≤ k → inputs[j]? = some n' → n' ∈ cols) :
    ∃ c : Nat, idx[k]? = some (c : Int) ∧ cols[c]? = some n ∧ ∀ j < c, cols[j]? ≠ some n := by
  induction k using Nat.strongRecOn generalizing n with
  | _ k ih =>
    obtain ⟨c, hc⟩ := index?_isSome (hin k n (Nat.le_refl _) hk)
    obtain ⟨hc1, hc2⟩ := index?_some hc
    refine ⟨c, ?_, hc1, hc2⟩
    rcases C50_named_or_taken_partial cfg hf cols inputs idx h k n c hk hc with h' | ⟨j, hj, h'⟩
    · exact h'
    · exfalso
      have hlen := (bindLoop_ok cfg cols (dataframeColumns_eq h)).1
      have hjl : j < inputs.length := by
        have := (List.getElem?_eq_some_iff.1 hk).1
        omega
      obtain ⟨c', e1, e2, _⟩ := ih j hj inputs[j] (List.getElem?_eq_getElem hjl)
        (fun m n' hm => hin m n' (by omega))
      rw [h'] at e1
      simp only [Option.some.injEq, Int.natCast_inj] at e1
      subst e1
      rw [hc1] at e2
      simp only [Option.some.injEq] at e2
      have hkl := (List.getElem?_eq_some_iff.1 hk)
      obtain ⟨hkl, hkv⟩ := hkl
      have := (List.nodup_iff_injective_get.1 hn) (a₁ := ⟨j, hjl⟩) (a₂ := ⟨k, hkl⟩) (by simp [← e2, hkv])
      simp at this
      omega

example : dataframeColumns defaultConfig true ["volume", "close", "low", "high"] ["high", "low", "close"] = .ok [3, 2, 1] := by
  decide +kernel

/-- C50 is violated: if the first input is not a column name and its configured column number is the column named like
the second input, this column is given to the first input and the second gets another one.  (All columns, all such names.) -/
theorem C50_stolen (cfg : Config) (hf : cfg.ohlcFirst = false) (cols : List String) (a b : String) (c : Nat)
    (ha : a ∉ cols) (hidx : get? cfg.indices a = some (.num c)) (hb : index? cols b = some c) (idx : List Int)
    (h : dataframeColumns cfg true cols [a, b] = .ok idx) :
    ∃ i j : Int, idx = [i, j] ∧ i = c ∧ j ≠ c := by
  have h' := dataframeColumns_eq h
  obtain ⟨hlen, _, hnd⟩ := bindLoop_ok cfg cols h'
  have hnd := hnd (nodup_colIndices _)
  match idx, hlen with
  | [i, j], _ =>
    have hi : i = c := by
      simp only [bindLoop, bind, Except.bind, wantedIdx, hf, Bool.false_eq_true, if_false] at h'
      rw [if_neg (by rw [mem_colIndices]; omega), index?_none.2 ha] at h'
      simp only [configIdx, hidx] at h'
      cases ht : takeIdx (colIndices cols.length) (c : Int) with
      | error e => simp [ht] at h'
      | ok r =>
        obtain ⟨j', free'⟩ := r
        simp only [ht] at h'
        have := (takeIdx_ok ht).2.2.2.2.1 (by rw [mem_colIndices]; have := index?_lt hb; omega)
        subst this
        split at h'
        · cases h'
        · simp only [Except.ok.injEq, List.cons.injEq] at h'
          exact h'.1.symm
    refine ⟨i, j, rfl, hi, ?_⟩
    rintro rfl
    subst hi
    simp at hnd

/-- `stochf` (high, low, close) with the default configuration on the columns `bid ask close`: `low` takes the column
`close`, and the close is taken from the column `bid`. -/
example : dataframeColumns defaultConfig true ["bid", "ask", "close"] ["high", "low", "close"] = .ok [1, 2, 0] := by
  decide +kernel

example : get? defaultConfig.indices "low" = some (.num (2 : Nat)) ∧ index? ["bid", "ask", "close"] "close" = some 2 ∧
    "low" ∉ ["bid", "ask", "close"] := by decide +kernel

/-- Configured column names are compared with the lower case names: a configured name with an upper case letter is never
found although a column has exactly this name. -/
theorem C50_configured_case (cfg : Config) (low : String → String) (hlow : ∀ x, low (low x) = low x) (raw : List String)
    (inp s : String) (rest : List String) (hup : low s ≠ s) (hc : get? cfg.indices inp = some (.str s))
    (hi : inp ∉ raw.map low) (hl : (inp :: rest).length ≤ raw.length) :
    dataframeColumns cfg true (raw.map low) (inp :: rest) = .error (.colIdxStrNotFound inp s) := by
  have hns : s ∉ raw.map low := by
    intro hm
    obtain ⟨x, _, rfl⟩ := List.mem_map.1 hm
    exact hup (hlow x)
  have hcfg : configIdx cfg (raw.map low) inp = .error (.colIdxStrNotFound inp s) := by
    simp only [configIdx, hc, index?_none.2 hns]
  unfold dataframeColumns
  rw [if_neg (by simp), if_neg (by simpa using hl)]
  simp only [bindLoop, bind, Except.bind, wantedIdx]
  cases cfg.ohlcFirst
  · simp only [Bool.false_eq_true, if_false]
    rw [if_neg (by rw [mem_colIndices]; omega), index?_none.2 hi, hcfg]
  · simp only [if_true, hcfg]

/-- With `str.lower` on the columns `High Low Adj`, `close` being configured as `Adj`. -/
example : dataframeColumns (defaultConfig.setInputIndices [("close", .str "Adj")]) true
    (["High", "Low", "Adj"].map (fun s => if s = "High" then "high" else if s = "Low" then "low" else if s = "Adj" then "adj" else s))
    ["high", "low", "close"] = .error (.colIdxStrNotFound "close" "Adj") := by
  decide +kernel

/-! ## C51: too few outputs -/

/-- Missing attributes: `list(self.inputs)` fails if a slot was not set. -/
theorem slots_missing (ns : List String) (d : Dict String (Line V)) (s : String) (hs : s ∈ ns) (hd : get? d s = none) :
    ns.mapM (fun s => match get? d s with
      | some l => Except.ok l
      | none => .error Err.attributeError) = .error .attributeError := by
  induction ns with
  | nil => simp at hs
  | cons n ns ih =>
    rw [List.mapM_cons]
    cases hg : get? d n with
    | none => rfl
    | some l =>
      have hm : s ∈ ns := by
        rcases List.mem_cons.1 hs with rfl | h
        · rw [hd] at hg; cases hg
        · exact h
      rw [ih hm]
      rfl

theorem map_fst_zip_take {α β : Type} : ∀ (l : List α) (m : List β), (l.zip m).map Prod.fst = l.take m.length
  | [], _ => by simp
  | _ :: _, [] => by simp
  | a :: l, b :: m => by simp [map_fst_zip_take l m]

/-- C51 is violated: whenever an indicator has fewer outputs than inputs are needed but at least as many bars, the
documented error is not raised; a bare AttributeError is (all indicators, all data). -/
theorem C51_wrong_error (cfg : Config) (low : String → String) (top : Bool) (inputs : List String) (allow : Nat)
    (outs : List (Line V)) (first : Line V) (h0 : outs.head? = some first) (hn : inputs.Nodup)
    (hfew : outs.length < inputs.length) (h2 : 2 ≤ inputs.length) (hbars : inputs.length ≤ first.series.length) :
    bindInputs cfg low top (InCls.fresh inputs allow) [.holder outs] = .error .attributeError := by
  cases outs with
  | nil => simp at h0
  | cons l ls =>
    simp only [List.head?_cons, Option.some.injEq] at h0
    subst h0
    rw [bindInputs_holder _ _ _ _ _ _ h2, fromHolder_ok _ _ _ hbars]
    have hs : (l :: ls).length < inputs.length := hfew
    have : inputLines (⟨inputs.zip (l :: ls), [], InCls.fresh inputs allow⟩ : Bound V) = .error .attributeError := by
      refine slots_missing inputs _ inputs[(l :: ls).length] (List.getElem_mem hs) ?_
      rw [get?_eq_none_iff]
      unfold keys
      intro hm
      rw [map_fst_zip_take] at hm
      obtain ⟨i, hi, he⟩ := List.mem_iff_getElem.1 hm
      rw [List.getElem_take] at he
      simp only [List.length_take] at hi
      have := (List.nodup_iff_injective_get.1 hn) (a₁ := ⟨i, by omega⟩) (a₂ := ⟨(l :: ls).length, hs⟩) (by simpa using he)
      simp at this hi
      omega
    simp only [bind, Except.bind, this]

/-- C51, what holds: such a call never delivers an indicator, it always raises. -/
theorem C51_rejected_partial (cfg : Config) (low : String → String) (top : Bool) (inputs : List String) (allow : Nat)
    (outs : List (Line V)) (hn : inputs.Nodup) (hfew : outs.length < inputs.length) (h2 : 2 ≤ inputs.length) :
    ∃ e, bindInputs cfg low top (InCls.fresh inputs allow) [.holder outs] = .error e := by
  cases outs with
  | nil =>
    refine ⟨.indexError, ?_⟩
    rw [bindInputs_holder _ _ _ _ _ _ h2]
    rfl
  | cons l ls =>
    by_cases hb : inputs.length ≤ l.series.length
    · exact ⟨_, C51_wrong_error cfg low top inputs allow (l :: ls) l rfl hn hfew h2 hb⟩
    · refine ⟨.multiDimSmall, ?_⟩
      rw [bindInputs_holder _ _ _ _ _ _ h2, fromHolder_few _ _ _ (by omega)]
      rfl

/-- The same check rejects a *valid* indicator with enough outputs if the data has fewer bars than there are inputs. -/
theorem C51_false_alarm (cfg : Config) (low : String → String) (top : Bool) (inputs : List String) (allow : Nat)
    (l : Line V) (ls : List (Line V)) (h2 : 2 ≤ inputs.length) (hbars : l.series.length < inputs.length) :
    bindInputs cfg low top (InCls.fresh inputs allow) [.holder (l :: ls)] = .error .multiDimSmall := by
  rw [bindInputs_holder _ _ _ _ _ _ h2, fromHolder_few _ _ _ hbars]
  rfl

/-- With enough outputs and bars, the inputs are the outputs in order. -/
theorem C51_in_order (cfg : Config) (low : String → String) (top : Bool) (inputs : List String) (allow : Nat)
    (outs : List (Line V)) (first : Line V) (h0 : outs.head? = some first) (hn : inputs.Nodup)
    (hmany : inputs.length ≤ outs.length) (h2 : 2 ≤ inputs.length) (hbars : inputs.length ≤ first.series.length) :
    bindInputs cfg low top (InCls.fresh inputs allow) [.holder outs] =
      .ok (outs.take inputs.length, [], InCls.fresh inputs allow) := by
  cases outs with
  | nil => simp at h0
  | cons l ls =>
    simp only [List.head?_cons, Option.some.injEq] at h0
    subst h0
    rw [bindInputs_holder _ _ _ _ _ _ h2, fromHolder_ok _ _ _ hbars]
    refine finish_ok inputs allow [] _ _ (slots_mapM hn ((l :: ls).take inputs.length)
      (by rw [List.length_take]; omega) _ ?_) (by rw [List.length_take]; omega)
    intro k hk
    apply mem_get?_of_nodup
    · unfold keys
      rw [List.map_fst_zip hmany]
      exact hn
    · rw [List.mem_iff_getElem]
      exact ⟨k, by rw [List.length_zip]; omega, by simp⟩

/-- One output for `stochf` (three inputs), four bars. -/
example : (⟨[1, 2, 3, 4], 1⟩ : Line Nat).series.length ≥ ["high", "low", "close"].length ∧
    ["high", "low", "close"].Nodup := by decide +kernel

/-! ## C80: positional inputs are bound in order -/

theorem mkInputs_plain (cfg : Config) (low : String → String) (as : List (Arg V)) (ns : List String)
    (ls : List (Line V)) (hl : as.length = ns.length) (hls : ls.length = ns.length)
    (h : ∀ k (h1 : k < as.length) (h2 : k < ns.length) (h3 : k < ls.length), mkInput cfg low as[k] ns[k] = .ok ls[k]) :
    mkInputs cfg low as ns = .ok (ns.zip ls) := by
  induction as generalizing ns ls with
  | nil => cases ns with
    | nil => rfl
    | cons => simp at hl
  | cons a as ih =>
    cases ns with
    | nil => simp at hl
    | cons n ns =>
      cases ls with
      | nil => simp at hls
      | cons l ls =>
        have h0 := h 0 (by simp) (by simp) (by simp)
        simp only [List.getElem_cons_zero] at h0
        have hr := ih ns ls (by simpa using hl) (by simpa using hls) (fun k h1 h2 h3 => by
          have := h (k + 1) (by simpa using h1) (by simpa using h2) (by simpa using h3)
          simpa using this)
        simp only [mkInputs, bind, Except.bind, h0, hr]
        rfl

/-- C80.  If there are at least as many positional arguments as inputs, then the k-th input is made from the k-th
argument and nothing else, the arguments left over are forwarded unchanged and the class is left as it was. -/
theorem C80_positional (cfg : Config) (low : String → String) (top : Bool) (inputs : List String) (allow : Nat)
    (args : List (Arg V)) (ls : List (Line V)) (hn : inputs.Nodup) (h1 : 1 ≤ inputs.length) (hl : inputs.length ≤ args.length)
    (hls : ls.length = inputs.length)
    (h : ∀ k (h1 : k < args.length) (h2 : k < inputs.length) (h3 : k < ls.length), mkInput cfg low args[k] inputs[k] = .ok ls[k]) :
    bindInputs cfg low top (InCls.fresh inputs allow) args =
      .ok (ls, args.drop inputs.length, InCls.fresh inputs allow) := by
  have hmk := mkInputs_plain cfg low (args.take inputs.length) inputs ls (by simp; omega) hls (fun k a1 a2 a3 => by
    simp only [List.length_take] at a1
    have := h k (by omega) a2 a3
    simpa using this)
  cases args with
  | nil =>
    exfalso
    rw [List.length_nil] at hl
    omega
  | cons a as =>
    have : fromArgs cfg low top (InCls.fresh inputs allow) (a :: as) =
        (do
          let d ← mkInputs cfg low ((a :: as).take inputs.length) inputs
          .ok ⟨d, (a :: as).drop inputs.length, InCls.fresh inputs allow⟩) := if_pos hl
    unfold bindInputs
    rw [this, hmk]
    exact finish_ok inputs allow _ _ _ (slots_mapM hn ls hls _ (get?_zip_nodup hn ls hls)) (by omega)

/-- What an input is made of: a line or the first output of an indicator with its minimum period, a series with minimum
period 1. -/
theorem C80_conversion (cfg : Config) (low : String → String) (name : String) (l : Line V) (ls : List (Line V)) (xs : List V) :
    mkInput cfg low (.line l) name = .ok l ∧ mkInput cfg low (.holder (l :: ls)) name = .ok l ∧
      mkInput cfg low (.series xs) name = .ok ⟨xs, 1⟩ := ⟨rfl, rfl, rfl⟩

/-- A single input given a DataFrame: a column with the name of the input is used (the first one). -/
theorem C80_frame_named (cfg : Config) (low : String → String) (df : Frame V) (name : String) (i : Nat)
    (hi : index? (df.cols.map (fun c => low c.1)) name = some i) :
    ∃ c, df.cols[i]? = some c ∧ low c.1 = name ∧ mkInput cfg low (.frame df) name = .ok ⟨c.2, 1⟩ := by
  have hlt := index?_lt hi
  simp only [List.length_map] at hlt
  have hs := (index?_some hi).1
  refine ⟨df.cols[i], List.getElem?_eq_getElem hlt, ?_, ?_⟩
  · simpa [hlt] using hs
  · simp only [mkInput, lineFromDataframe, hi, bind, Except.bind]
    have : ¬ (Int.ofNat i ≥ ((df.cols.map (fun c => low c.1)).length : Int)) := by simp; omega
    rw [if_neg this]
    obtain ⟨c, hc, hx⟩ := iloc_ok df (i := Int.ofNat i) (by simp) (by simp; omega)
    rw [hx]
    simp only [Int.ofNat_eq_natCast, Int.toNat_natCast] at hc
    rw [List.getElem?_eq_getElem hlt] at hc
    cases hc
    rfl

example : (bindInputs defaultConfig id true (InCls.fresh ["high", "low"] 1)
    [.series [1, 2], .line ⟨[3, 4], 2⟩, .series [9, 9]]).toOption.map (fun r => (r.1, r.2.1.length)) =
    some ([⟨[1, 2], 1⟩, (⟨[3, 4], 2⟩ : Line Nat)], 1) := by decide +kernel

end Bta.Meta
