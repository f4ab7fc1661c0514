import Verif.ApiArgs
import Verif.Props.Api
import Verif.Props.Columns
import Verif.Props.Catalog

/-!
# C120: from the data of a user to the documented calculation

A call of the library with a data frame, with series, or with the result of another indicator is the documented calculation on
the documented columns.
-/

namespace Bta.Api

open Meta Py

variable {V : Type} [PyFloat V]

/-! ## What the documentation says -/

/-- The inputs of each class, in the order of its calculation (the tables "Inputs" of the documentation). -/
def Spec.inputs : Cls → List String
  | .avgprice | .bop => ["open", "high", "low", "close"]
  | .typprice | .wclprice | .truerange | .atr | .natr | .cci | ._di | .plus_di | .minus_di | .di | .dx | .adx | .adxr
  | .stochf | .stochastic | .williamsr | .ultimateoscillator => ["high", "low", "close"]
  | .medprice | .mama | .ht_trendline | .midprice | .ht_dcperiod | .ht_dcphase | .ht_phasor | .ht_sine | .ht_trendmode
  | .correl | ._aroon | .aroon | .aroonosc | ._dm | .plus_dm | .minus_dm | .dm | .sar | .sarext => ["high", "low"]
  | .mfi | .ad | .adosc => ["high", "low", "close", "volume"]
  | .truehigh | .truelow => ["low", "close"]
  | .obv => ["close", "volume"]
  | .add | .«div» | .mult | .sub => ["input1", "input2"]
  | ._crossbase | .crossup | .crossdown | .crossover => ["crosser", "crossed"]
  | .beta => ["asset", "market"]
  | .mavp => ["close", "periods"]
  | _ => ["close"]

/-- the classes which take either high and low or one series (of which mostly the middle of the bars is meant) -/
def Spec.oneOrTwo : Cls → Bool
  | .mama | .ht_trendline | .ht_dcperiod | .ht_dcphase | .ht_phasor | .ht_sine | .ht_trendmode => true
  | _ => false

/-- the first column of a frame with a name, upper and lower case being the same -/
def Spec.column (low : String → String) (df : Frame V) (n : String) : Option (List V) :=
  (df.cols.find? (fun c => low c.1 = n)).map (·.2)

/-- plain data as a line: all of it, from the first bar on -/
def Spec.plain (xs : List V) : Line V := ⟨xs, 1⟩

theorem inputNames_eq (c : Cls) : inputNames c = Spec.inputs c := by
  cases c <;> rfl

theorem allowOf_eq (c : Cls) : allowOf c = if Spec.oneOrTwo c then 1 else 0 := by
  cases c <;> rfl

theorem inputs_nodup (c : Cls) : (Spec.inputs c).Nodup := by
  cases c <;> decide

theorem inputs_pos (c : Cls) : 1 ≤ (Spec.inputs c).length := by
  cases c <;> decide

/-! ## Columns -/

theorem find?_index? {α : Type} (cols : List (String × α)) (low : String → String) (n : String) (c : String × α)
    (h : cols.find? (fun c => low c.1 = n) = some c) :
    ∃ i, index? (cols.map fun c => low c.1) n = some i ∧ cols[i]? = some c := by
  induction cols with
  | nil => cases h
  | cons a l ih =>
    by_cases ha : low a.1 = n
    · rw [List.find?_cons_of_pos (by simpa using ha)] at h
      injection h with h
      subst h
      exact ⟨0, by simp [index?, ha], rfl⟩
    · rw [List.find?_cons_of_neg (by simpa using ha)] at h
      obtain ⟨i, h1, h2⟩ := ih h
      exact ⟨i + 1, by simp [index?, ha, h1], by simpa using h2⟩

/-- All inputs are names of columns: the loop gives these columns. -/
theorem bindLoop_named_all (cfg : Config) (hf : cfg.ohlcFirst = false) (cols : List String) (inputs : List String)
    (idx : List ℕ) (hn : inputs.Nodup) (h : inputs.mapM (index? cols) = some idx) (free : List Int)
    (hfree : ∀ i ∈ idx, (i : Int) ∈ free) (h1 : (-1 : Int) ∉ free) :
    bindLoop cfg cols inputs free = .ok (idx.map Int.ofNat) := by
  induction inputs generalizing idx free with
  | nil =>
    simp only [List.mapM_nil, pure, Option.some.injEq] at h
    subst h
    rfl
  | cons n ns ih =>
    rw [List.mapM_cons] at h
    cases hi : index? cols n with
    | none => rw [hi] at h; cases h
    | some i =>
      cases hr : ns.mapM (index? cols) with
      | none => rw [hi, hr] at h; cases h
      | some js =>
        rw [hi, hr] at h
        simp only [pure, bind, Option.bind, Option.some.injEq] at h
        subst h
        have hif : (i : Int) ∈ free := hfree i (by simp)
        have hw : wantedIdx cfg cols free n = .ok (i : Int) := by
          unfold wantedIdx
          simp only [hf, Bool.false_eq_true, if_false, bind, Except.bind, if_neg h1, hi]
        cases hrm : remove? free (i : Int) with
        | none => exact absurd hif (remove?_none.1 hrm)
        | some free' =>
          obtain ⟨_, _, he⟩ := remove?_some hrm
          have ht : takeIdx free (i : Int) = .ok ((i : Int), free') := by
            unfold takeIdx
            rw [hrm]
          have hrest := ih js (List.nodup_cons.1 hn).2 hr free' (by
            intro j hj
            rw [he]
            have hne : j ≠ i := by
              rintro rfl
              obtain ⟨m, hm, hm2⟩ : ∃ m ∈ ns, index? cols m = some j := by
                clear ih hrm
                induction ns generalizing js with
                | nil =>
                  simp only [List.mapM_nil, pure, Option.some.injEq] at hr
                  subst hr
                  cases hj
                | cons b bs ihb =>
                  rw [List.mapM_cons] at hr
                  cases hb : index? cols b with
                  | none => rw [hb] at hr; cases hr
                  | some b' =>
                    cases hbs : bs.mapM (index? cols) with
                    | none => rw [hb, hbs] at hr; cases hr
                    | some bs' =>
                      rw [hb, hbs] at hr
                      simp only [pure, bind, Option.bind, Option.some.injEq] at hr
                      subst hr
                      rcases List.mem_cons.1 hj with rfl | hj
                      · exact ⟨b, by simp, hb⟩
                      · obtain ⟨m, hm, hm2⟩ := ihb (by
                          have := (List.nodup_cons.1 hn)
                          exact List.nodup_cons.2 ⟨fun h => this.1 (List.mem_cons_of_mem _ h), (List.nodup_cons.1 this.2).2⟩)
                          bs' hbs hj (fun x hx => hfree x (by
                            rcases List.mem_cons.1 hx with h | hx
                            · simp [h]
                            · simp [hx]))
                        exact ⟨m, List.mem_cons_of_mem _ hm, hm2⟩
              have a := (index?_some hm2).1
              have b := (index?_some hi).1
              rw [a] at b
              injection b with b
              subst b
              exact (List.nodup_cons.1 hn).1 hm
            exact (List.mem_erase_of_ne (by exact_mod_cast hne)).2 (hfree j (by simp [hj])))
            (fun h => h1 (he ▸ h |> List.mem_of_mem_erase))
          unfold bindLoop
          simp only [bind, Except.bind, hw, ht, hrest]
          rfl

omit [PyFloat V] in
theorem mapM_column (low : String → String) (df : Frame V) (ns : List String) (xs : List (List V))
    (h : ns.mapM (Spec.column low df) = some xs) :
    ∃ idx : List ℕ, ns.mapM (index? (df.cols.map fun c => low c.1)) = some idx ∧
      frameLines df (idx.map Int.ofNat) = xs.map Spec.plain := by
  induction ns generalizing xs with
  | nil =>
    simp only [List.mapM_nil, pure, Option.some.injEq] at h
    subst h
    exact ⟨[], rfl, rfl⟩
  | cons n ns ih =>
    rw [List.mapM_cons] at h
    cases hc : Spec.column low df n with
    | none => rw [hc] at h; cases h
    | some c =>
      cases hr : ns.mapM (Spec.column low df) with
      | none => rw [hc, hr] at h; cases h
      | some cs =>
        rw [hc, hr] at h
        simp only [pure, bind, Option.bind, Option.some.injEq] at h
        subst h
        obtain ⟨idx, h1, h2⟩ := ih cs hr
        unfold Spec.column at hc
        obtain ⟨col, hcol, rfl⟩ := Option.map_eq_some_iff.1 hc
        obtain ⟨i, hi, hi2⟩ := find?_index? df.cols low n col hcol
        refine ⟨i :: idx, ?_, ?_⟩
        · rw [List.mapM_cons, hi, h1]
          rfl
        · simp only [frameLines, List.map_cons, Int.ofNat_eq_natCast, Int.toNat_natCast, hi2, Option.map_some,
            Option.getD_some] at h2 ⊢
          rw [h2]
          rfl

theorem mapM_index_bound {cols : List String} {ns : List String} {idx : List ℕ} (h : ns.mapM (index? cols) = some idx) :
    idx.length = ns.length ∧ ∀ i ∈ idx, i < cols.length := by
  induction ns generalizing idx with
  | nil =>
    simp only [List.mapM_nil, pure, Option.some.injEq] at h
    subst h
    exact ⟨rfl, fun i hi => by cases hi⟩
  | cons n ns ih =>
    rw [List.mapM_cons] at h
    cases hi : index? cols n with
    | none => rw [hi] at h; cases h
    | some i =>
      cases hr : ns.mapM (index? cols) with
      | none => rw [hi, hr] at h; cases h
      | some js =>
        rw [hi, hr] at h
        simp only [pure, bind, Option.bind, Option.some.injEq] at h
        subst h
        obtain ⟨a, b⟩ := ih hr
        refine ⟨by simp [a], fun j hj => ?_⟩
        rcases List.mem_cons.1 hj with rfl | hj
        · exact index?_lt hi
        · exact b j hj

theorem mapM_index_mem {cols : List String} {ns : List String} {idx : List ℕ} (h : ns.mapM (index? cols) = some idx) :
    ns ⊆ cols := by
  induction ns generalizing idx with
  | nil => exact List.nil_subset _
  | cons n ns ih =>
    rw [List.mapM_cons] at h
    cases hi : index? cols n with
    | none => rw [hi] at h; cases h
    | some i =>
      cases hr : ns.mapM (index? cols) with
      | none => rw [hi, hr] at h; cases h
      | some js => exact List.cons_subset.2 ⟨List.mem_of_getElem? (index?_some hi).1, ih hr⟩

omit [PyFloat V] in
/-- A frame with a column for each input: the inputs are these columns. -/
theorem bind_columns (cfg : Config) (hf : cfg.ohlcFirst = false) (low : String → String) (inputs : List String) (allow : ℕ)
    (hn : inputs.Nodup) (h1 : 1 ≤ inputs.length) (df : Frame V) (xs : List (List V))
    (h : inputs.mapM (Spec.column low df) = some xs) (hl : inputs.length ≤ df.cols.length) :
    bindInputs cfg low true (InCls.fresh inputs allow) [.frame df] =
      .ok (xs.map Spec.plain, [], InCls.fresh inputs allow) := by
  obtain ⟨idx, hi, hx⟩ := mapM_column low df inputs xs h
  obtain ⟨hlen, hb⟩ := mapM_index_bound hi
  have hlx : (xs.map Spec.plain).length = inputs.length := by
    rw [← hx]
    simp [frameLines, hlen]
  by_cases h2 : 2 ≤ inputs.length
  · rw [bindInputs_frame cfg low true inputs allow df h2]
    have hd : dataframeColumns cfg true (df.cols.map fun c => low c.1) inputs = .ok (idx.map Int.ofNat) := by
      unfold dataframeColumns
      rw [if_neg (by simp), if_neg (by simp; omega)]
      refine bindLoop_named_all cfg hf _ inputs idx hn hi _ (fun i hi => ?_) ?_
      · rw [mem_colIndices]
        have := hb i hi
        omega
      · rw [mem_colIndices]
        omega
    have hff : fromFrame cfg low true df inputs = .ok (inputs.zip (frameLines df (idx.map Int.ofNat))) := by
      unfold fromFrame
      rw [hd]
      refine fromFrame_mapM df inputs _ (by simpa using hlen) (fun i hi => ?_)
      obtain ⟨j, hj, rfl⟩ := List.mem_map.1 hi
      have := hb j hj
      simp only [List.length_map] at this
      simp only [Int.ofNat_eq_natCast]
      omega
    rw [hff, hx]
    exact finish_ok inputs allow _ _ _ (slots_mapM hn _ hlx _ (get?_zip_nodup hn _ hlx)) (by omega)
  · obtain ⟨n, rfl⟩ : ∃ n, inputs = [n] := by
      match inputs, h1, h2 with
      | [n], _, _ => exact ⟨n, rfl⟩
      | _ :: _ :: _, _, h2 => simp at h2
    rw [List.mapM_cons] at hi h
    cases hn' : index? (df.cols.map fun c => low c.1) n with
    | none => rw [hn'] at hi; cases hi
    | some i =>
      obtain ⟨c, hc, hlow, hmk⟩ := C80_frame_named cfg low df n i hn'
      refine C80_positional cfg low true [n] allow [.frame df] (xs.map Spec.plain) hn (by simp) (by simp) hlx ?_
      rw [hn'] at hi
      simp only [List.mapM_nil, pure, bind, Option.bind, Option.some.injEq] at hi
      subst hi
      rw [← hx]
      intro k h1 h2 h3
      have hk : k = 0 := by simp at h2; omega
      subst hk
      simp only [List.getElem_cons_zero, frameLines, List.map_cons, Int.ofNat_eq_natCast, Int.toNat_natCast, hc,
        Option.map_some, Option.getD_some]
      exact hmk

/-- the free columns but the first two -/
def colIndices' (n : ℕ) : List Int := (List.range n).reverse.map (fun i => Int.ofNat (i + 2))

/-! ## C120 -/

/-- **C120** A data frame in which each input of the indicator is a column, in whatever order, in upper or lower case, with
whatever other columns: the call is the calculation on these columns, for all keywords (which the call treats as C117 to C119
say). -/
theorem C120_frame (E : Env V) (cfg : Config) (hf : cfg.ohlcFirst = false) (low : String → String) (c : Cls) (df : Frame V)
    (kw : Dict String PyVal) (xs : List (List V)) (h : (Spec.inputs c).mapM (Spec.column low df) = some xs) :
    invoke E cfg low c [.frame df] kw = call E c kw (xs.map Spec.plain) := by
  have hl : (Spec.inputs c).length ≤ df.cols.length := by
    have hs : Spec.inputs c ⊆ df.cols.map (fun c => low c.1) := by
      obtain ⟨idx, hi, _⟩ := mapM_column low df _ xs h
      exact mapM_index_mem hi
    simpa using (List.subperm_of_subset (inputs_nodup c) hs).length_le
  unfold invoke
  rw [inputNames_eq, bind_columns cfg hf low _ _ (inputs_nodup c) (inputs_pos c) df xs h hl]
  rfl

/-- **C120** Without keywords it is the documented calculation with its documented defaults. -/
theorem C120_documented (E : Env V) (hE : E.talib = false) (cfg : Config) (hf : cfg.ohlcFirst = false)
    (low : String → String) (c : Cls) (r : Bta.Call V) (hr : Spec.documented E c = some r) (df : Frame V)
    (xs : List (List V)) (h : (Spec.inputs c).mapM (Spec.column low df) = some xs) :
    invoke E cfg low c [.frame df] [] = lift (r.run (nth (inputsOf c (xs.map Spec.plain)))) := by
  rw [C120_frame E cfg hf low c df [] xs h, C117_defaults E hE c r hr]

/-- **C120** Series, one for each input: taken in the order of the inputs. -/
theorem C120_series (E : Env V) (cfg : Config) (low : String → String) (c : Cls) (xs : List (List V))
    (kw : Dict String PyVal) (hl : xs.length = (Spec.inputs c).length) :
    invoke E cfg low c (xs.map .series) kw = call E c kw (xs.map Spec.plain) := by
  unfold invoke
  rw [inputNames_eq, C80_positional cfg low true _ _ (xs.map .series) (xs.map Spec.plain) (inputs_nodup c) (inputs_pos c)
    (by simp [hl]) (by simp [hl]) (by
      intro k h1 h2 h3
      simp only [List.getElem_map]
      rfl)]
  rw [List.drop_of_length_le (by simp [hl])]
  rfl

/-- **C120** Lines, or results of which the first output is meant, one for each input: as they are, with their minimum
periods. -/
theorem C120_lines (E : Env V) (cfg : Config) (low : String → String) (c : Cls) (ls : List (Line V))
    (kw : Dict String PyVal) (hl : ls.length = (Spec.inputs c).length) :
    invoke E cfg low c (ls.map .line) kw = call E c kw ls ∧
      invoke E cfg low c (ls.map (fun l => .holder [l])) kw = call E c kw ls := by
  constructor <;>
  · unfold invoke
    rw [inputNames_eq, C80_positional cfg low true _ _ _ ls (inputs_nodup c) (inputs_pos c)
      (by simp [hl]) (by simp [hl]) (by
        intro k h1 h2 h3
        simp only [List.getElem_map]
        rfl)]
    rw [List.drop_of_length_le (by simp [hl])]
    rfl

/-- **C120** The indicators which take the middle of high and low also take a single series instead. -/
theorem C120_single (E : Env V) (cfg : Config) (low : String → String) (c : Cls) (hc : Spec.oneOrTwo c = true)
    (x : List V) (kw : Dict String PyVal) : invoke E cfg low c [.series x] kw = call E c kw [Spec.plain x] := by
  have h1 : inputNames c = ["high", "low"] := by cases c <;> first | rfl | cases hc
  have h2 : allowOf c = 1 := by rw [allowOf_eq, hc]; rfl
  unfold invoke
  rw [h1, h2]
  rfl

/-- **C120** The other indicators with several inputs refuse a single series. -/
theorem C120_too_few (E : Env V) (cfg : Config) (low : String → String) (c : Cls) (hc : Spec.oneOrTwo c = false)
    (h2 : 2 ≤ (Spec.inputs c).length) (x : List V) (kw : Dict String PyVal) :
    invoke E cfg low c [.series x] kw = .error (.py .multiDimType) := by
  have ha : allowOf c = 0 := by rw [allowOf_eq, hc]; rfl
  unfold invoke bindInputs fromArgs
  rw [inputNames_eq, ha]
  have : ¬ (InCls.fresh (Spec.inputs c) 0).inputs.length ≤ [Arg.series x].length := by
    simp [InCls.fresh]
    omega
  simp only [if_neg this]
  rfl

/-- **C120** The result of another indicator given once: its outputs in their order, one for each input (if it has as many, and
not fewer bars than inputs are needed). -/
theorem C120_result (E : Env V) (cfg : Config) (low : String → String) (c : Cls) (l : Line V) (ls : List (Line V))
    (kw : Dict String PyVal) (hl : (Spec.inputs c).length ≤ (l :: ls).length)
    (hb : (Spec.inputs c).length ≤ l.series.length) :
    invoke E cfg low c [.holder (l :: ls)] kw = call E c kw ((l :: ls).take (Spec.inputs c).length) := by
  have hbind : bindInputs cfg low true (InCls.fresh (Spec.inputs c) (allowOf c)) [.holder (l :: ls)] =
      .ok ((l :: ls).take (Spec.inputs c).length, [], InCls.fresh (Spec.inputs c) (allowOf c)) := by
    have hn := inputs_nodup c
    have h1 := inputs_pos c
    generalize Spec.inputs c = ins at *
    generalize allowOf c = allow
    by_cases h2 : ins.length ≤ 1
    · obtain ⟨n, rfl⟩ : ∃ n, ins = [n] := by
        match ins, h1, h2 with
        | [n], _, _ => exact ⟨n, rfl⟩
        | _ :: _ :: _, _, h2 => simp at h2
      rw [C80_positional cfg low true [n] allow [.holder (l :: ls)] [l] hn (by simp) (by simp) rfl (by
        intro k a1 a2 a3
        have hk : k = 0 := by simp at a2; omega
        subst hk
        rfl)]
      rfl
    · have ht : ((l :: ls).take ins.length).length = ins.length := by
        rw [List.length_take]
        omega
      have hz : ins.zip (l :: ls) = ins.zip ((l :: ls).take ins.length) := by
        conv_lhs => rw [List.zip_eq_zip_take_min, Nat.min_eq_left hl, List.take_length]
      have hh : fromHolder (l :: ls) ins = .ok (ins.zip ((l :: ls).take ins.length)) := by
        unfold fromHolder holderSize
        simp only [bind, Except.bind, if_neg (show ¬ l.series.length < ins.length by omega)]
        rw [hz]
      have hf : fromArgs cfg low true (InCls.fresh ins allow) [.holder (l :: ls)] = (do
          let d ← fromHolder (l :: ls) ins
          .ok ⟨d, [], InCls.fresh ins allow⟩) :=
        if_neg (show ¬ (InCls.fresh ins allow).inputs.length ≤ [Arg.holder (l :: ls)].length by
          simp only [InCls.fresh, List.length_cons, List.length_nil]; omega)
      unfold bindInputs
      rw [hf, hh]
      exact finish_ok ins allow [] _ _ (slots_mapM hn _ ht _ (get?_zip_nodup hn _ ht)) (by omega)
  unfold invoke
  rw [inputNames_eq, hbind]
  rfl

/-- **C120** More positional arguments than inputs are refused (the classes of which an initialiser takes one, which are `ema`, `mad`,
`stochrsi` and `gdema`, are not covered). -/
theorem C120_too_many (E : Env V) (cfg : Config) (low : String → String) (c : Cls)
    (hc : c ∉ [.ema, .mad, .stochrsi, .gdema])
    (xs more : List (List V)) (kw : Dict String PyVal) (hl : xs.length = (Spec.inputs c).length) (hm : more ≠ []) :
    invoke E cfg low c ((xs ++ more).map .series) kw = .error (.py .typeError) := by
  have hbind : bindInputs cfg low true (InCls.fresh (Spec.inputs c) (allowOf c)) ((xs ++ more).map .series) =
      .ok (xs.map Spec.plain, more.map .series, InCls.fresh (Spec.inputs c) (allowOf c)) := by
    rw [C80_positional cfg low true _ _ ((xs ++ more).map .series) (xs.map Spec.plain) (inputs_nodup c) (inputs_pos c)
      (by simp [hl]) (by simp [hl]) (by
        intro k h1 h2 h3
        simp only [List.getElem_map]
        rw [List.getElem_append_left (by simpa using h3)]
        rfl)]
    rw [← hl, List.map_append, List.drop_append_of_le_length (by simp), List.drop_of_length_le (by simp), List.nil_append]
  have hi : c.rows.any (fun r => r.init && r.name ≠ "Indicator") = true := by
    cases c <;> rfl
  have ht : ∀ ks, initCheck c.rows (more.map (Arg.series (V := V))).length ks = .error .typeError := by
    intro ks
    unfold initCheck
    rw [if_neg]
    intro h
    obtain ⟨r, hr, hr2⟩ := List.any_eq_true.1 hi
    rw [Bool.and_eq_true] at hr2
    have := List.all_eq_true.1 h r (by
      rw [List.mem_filter]
      exact ⟨List.mem_reverse.2 hr, hr2.1⟩)
    unfold takes at this
    rw [if_neg (by simpa using hr2.2), Bool.and_eq_true] at this
    have hk : r.kws = [] ∨ r.name = "Indicator" := by
      have hall : c.rows.all (fun r => r.kws.isEmpty || r.name == "Indicator") = true := by
        cases c <;> first
          | rfl
          | exact absurd (by decide) hc
      simpa using List.all_eq_true.1 hall r hr
    rcases hk with hk | hk
    · rw [hk] at this
      simp at this
      exact hm this.1
    · exact absurd hk (by simpa using hr2.2)
  obtain ⟨y, ys, hy⟩ : ∃ y ys, more.map (Arg.series (V := V)) = y :: ys := by
    cases more with
    | nil => exact absurd rfl hm
    | cons y ys => exact ⟨_, _, rfl⟩
  unfold invoke
  rw [inputNames_eq, hbind]
  show (match more.map Arg.series with
    | [] => call E c kw (xs.map Spec.plain)
    | rest => do
      let r := fromKwargs ⟨c.defaults, []⟩ (talibKwargs E.talib c.hooks kw)
      lift (initCheck c.rows rest.length (keys r.2))
      .error .outside) = _
  rw [hy] at ht ⊢
  simp only [ht]
  rfl

/-- **C120** Without data there is no call. -/
theorem C120_none (E : Env V) (cfg : Config) (low : String → String) (c : Cls) (kw : Dict String PyVal) :
    invoke E cfg low c [] kw = .error (.py .oneInputNeeded) := rfl

/-- **C120** Inputs with names of their own (`input1`, `crosser`, `asset`, ...), which are neither columns nor configured: the
first two columns of the frame. -/
theorem C120_first_columns (E : Env V) (cfg : Config) (hf : cfg.ohlcFirst = false) (low : String → String) (c : Cls)
    (a b : String) (hc : Spec.inputs c = [a, b]) (n0 n1 : String) (x0 x1 : List V) (more : List (String × List V))
    (ha : a ∉ ((n0, x0) :: (n1, x1) :: more).map (fun c => low c.1))
    (hb : b ∉ ((n0, x0) :: (n1, x1) :: more).map (fun c => low c.1))
    (ga : get? cfg.indices a = none) (gb : get? cfg.indices b = none) (kw : Dict String PyVal) :
    invoke E cfg low c [.frame ⟨(n0, x0) :: (n1, x1) :: more⟩] kw = call E c kw [Spec.plain x0, Spec.plain x1] := by
  have hn := inputs_nodup c
  rw [hc] at hn
  have hci : colIndices ((((n0, x0) :: (n1, x1) :: more).map (fun c => low c.1))).length =
      colIndices' more.length ++ [1, 0] := by
    simp only [List.map_cons, List.length_cons, List.length_map, colIndices, colIndices']
    rw [List.range_succ_eq_map, List.range_succ_eq_map]
    simp only [List.map_cons, List.map_map, List.reverse_cons, List.map_append, List.map_reverse, List.map_nil,
      List.append_assoc, List.cons_append, List.nil_append]
    rfl
  have hd : dataframeColumns cfg true (((n0, x0) :: (n1, x1) :: more).map (fun c => low c.1)) [a, b] = .ok [0, 1] := by
    unfold dataframeColumns
    rw [if_neg (by simp), if_neg (by simp), hci]
    have hm : ∀ l : List Int, (-1 : Int) ∉ colIndices' more.length ++ l ∨ (-1 : Int) ∈ l := by
      intro l
      by_cases h : (-1 : Int) ∈ l
      · exact .inr h
      · refine .inl ?_
        simp only [List.mem_append, not_or]
        refine ⟨?_, h⟩
        simp only [colIndices', List.mem_map, not_exists, not_and]
        intro i _
        have : (0 : Int) ≤ (Int.ofNat (i + 2)) := Int.natCast_nonneg _
        omega
    have h0 := (hm [1, 0]).resolve_right (by decide)
    have h1 := (hm [1]).resolve_right (by decide)
    have w : ∀ (l : List Int) (n : String), (-1 : Int) ∉ l →
        n ∉ ((n0, x0) :: (n1, x1) :: more).map (fun c => low c.1) → get? cfg.indices n = none →
        wantedIdx cfg (((n0, x0) :: (n1, x1) :: more).map (fun c => low c.1)) l n = .ok (-1) := by
      intro l n h2 h3 h4
      unfold wantedIdx
      simp only [hf, Bool.false_eq_true, if_false, bind, Except.bind, if_neg h2, index?_none.2 h3, configIdx, h4]
    have t : ∀ (l : List Int) (i : Int), (-1 : Int) ∉ l ++ [i] → takeIdx (l ++ [i]) (-1) = .ok (i, l) := by
      intro l i h2
      unfold takeIdx
      rw [remove?_none.2 h2]
      simp [pop?]
    have e : colIndices' more.length ++ [1, 0] = (colIndices' more.length ++ [1]) ++ [(0 : Int)] := by simp
    unfold bindLoop bindLoop bindLoop
    simp only [bind, Except.bind, w _ a h0 ha ga]
    rw [e, t _ 0 (e ▸ h0)]
    simp only [w _ b h1 hb gb, t _ 1 h1]
  have hff : fromFrame cfg low true ⟨(n0, x0) :: (n1, x1) :: more⟩ [a, b] =
      .ok ([a, b].zip (frameLines ⟨(n0, x0) :: (n1, x1) :: more⟩ [0, 1])) := by
    unfold fromFrame
    rw [hd]
    refine fromFrame_mapM _ [a, b] _ rfl ?_
    intro i hi
    simp only [List.mem_cons, List.not_mem_nil, or_false] at hi
    rcases hi with rfl | rfl <;> simp only [List.length_cons] <;> omega
  have hbind : bindInputs cfg low true (InCls.fresh [a, b] (allowOf c)) [.frame ⟨(n0, x0) :: (n1, x1) :: more⟩] =
      .ok ([Spec.plain x0, Spec.plain x1], [], InCls.fresh [a, b] (allowOf c)) := by
    rw [bindInputs_frame cfg low true [a, b] _ _ (by simp), hff]
    exact finish_ok [a, b] (allowOf c) [] _ _ (slots_mapM hn [Spec.plain x0, Spec.plain x1] rfl _
      (get?_zip_nodup hn (frameLines (⟨(n0, x0) :: (n1, x1) :: more⟩ : Frame V) [0, 1]) rfl)) (by simp)
  unfold invoke
  rw [inputNames_eq, hc, hbind]
  rfl

/-! ## Outputs -/

/-- The outputs of each class (the tables "Outputs" of the documentation). -/
def Spec.outputs : Cls → List String
  | .avgprice => ["avg"]
  | .typprice => ["tp"]
  | .wclprice => ["wcl"]
  | .medprice => ["med"]
  | .add => ["add"]
  | .«div» => ["div"]
  | .mult => ["mult"]
  | .sub => ["sub"]
  | .«max» => ["max"]
  | .«min» => ["min"]
  | .minmax => ["min", "max"]
  | .maxindex => ["maxindex"]
  | .minindex => ["minindex"]
  | .minmaxindex => ["minindex", "maxindex"]
  | .«sum» => ["sum"]
  | ._mathrad => []
  | .sin => ["sin"]
  | .cos => ["cos"]
  | .tan => ["tan"]
  | .sinh => ["sinh"]
  | .cosh => ["cosh"]
  | .tanh => ["tanh"]
  | .asin => ["asin"]
  | .acos => ["acos"]
  | .atan => ["atan"]
  | .ceil => ["ceil"]
  | .exp => ["exp"]
  | .floor => ["floor"]
  | .ln => ["ln"]
  | .log10 => ["log10"]
  | .sqrt => ["sqrt"]
  | ._crossbase => []
  | .crossup => ["crossup"]
  | .crossdown => ["crossdown"]
  | .crossover => ["crossover"]
  | .ewma => ["ewma"]
  | .sma => ["sma"]
  | .ema => ["ema"]
  | .smma => ["smma"]
  | .wma => ["wma"]
  | .dema => ["dema"]
  | .kama => ["kama"]
  | .tema => ["tema"]
  | .trima => ["trima"]
  | .trix => ["trix"]
  | .gdema => ["gd"]
  | .t3 => ["t3"]
  | .mavp => ["mavp"]
  | .mama => ["mama", "fama"]
  | .ht_trendline => ["trendline"]
  | .midprice => ["midprice"]
  | .midpoint => ["midpoint"]
  | .ht_dcperiod => ["dcperiod"]
  | .ht_dcphase => ["dcphase"]
  | .ht_phasor => ["inphase", "quadrature"]
  | .ht_sine => ["sine", "leadsine"]
  | .ht_trendmode => ["trendline"]
  | .beta => ["beta"]
  | .correl => ["correl"]
  | ._linreg_base => []
  | .linearreg_slope => ["slope"]
  | .linearreg_angle => ["slope"]
  | .linearreg_intercept => ["intercept"]
  | .linearreg => ["linreg"]
  | .tsf => ["tsf"]
  | .mad => ["meandev"]
  | .stddev => ["std"]
  | .stddev_s => ["std"]
  | .var => ["var"]
  | .var_s => ["var"]
  | .bbands => ["mid", "top", "bot"]
  | .truehigh => ["truehi"]
  | .truelow => ["truelo"]
  | .truerange => ["tr"]
  | .atr => ["atr"]
  | .natr => ["natr"]
  | ._aroon => []
  | .aroon => ["aroondn", "aroonup"]
  | .aroonosc => ["aroonosc"]
  | .bop => ["bop"]
  | .cci => ["cci"]
  | .cmo => ["cmo"]
  | .smacc => ["smacc"]
  | ._dm => []
  | .plus_dm => ["plusdm"]
  | .minus_dm => ["minusdm"]
  | .dm => ["plusdm", "minusdm"]
  | ._di => []
  | .plus_di => ["plusdi"]
  | .minus_di => ["minusdi"]
  | .di => ["plusdi", "minusdi"]
  | .dx => ["dx"]
  | .adx => ["adx"]
  | .adxr => ["adxr"]
  | .macd => ["macd", "signal", "histogram"]
  | .mfi => ["mfi"]
  | .mom => ["mom"]
  | ._posc => []
  | .apo => ["apo"]
  | .ppo => ["ppo", "signal", "histogram"]
  | .ppofast => ["ppo", "signal", "histogram"]
  | ._rocbase => []
  | .roc => ["roc"]
  | .rocp => ["rocp"]
  | .rocr => ["rocr"]
  | .rocr100 => ["rocr100"]
  | .rsi => ["rsi"]
  | .sar => ["sar"]
  | .sarext => ["sar"]
  | .stochf => ["k", "d"]
  | .stochastic => ["k", "d"]
  | .stochrsi => ["stochrsi"]
  | .williamsr => ["r"]
  | .ultimateoscillator => ["uo"]
  | .ad => ["ad"]
  | .adosc => ["adosc"]
  | .obv => ["obv"]

theorem ok_bind {α β : Type} {o : Out α} {f : α → Out β} {r : β} (h : (o >>= f) = .ok r) : ∃ a, o = .ok a ∧ f a = .ok r := by
  cases o with
  | error e => cases h
  | ok a => exact ⟨a, rfl, h⟩

theorem ok_pure {α : Type} {a r : α} (h : (pure a : Out α) = .ok r) : a = r := by
  injection h

local macro "here" : tactic => `(tactic| first
  | exact List.Mem.head _
  | exact List.Mem.tail _ (List.Mem.head _)
  | (simp only [Call.names, Cls.row]; simp [row_sin,row_cos,row_tan,row_sinh,row_cosh,row_tanh,row_asin,row_acos,row_atan,row_ceil,row_exp,row_floor,row_ln,row_log10,row_sqrt]; done))

theorem buildAvg_names (E : Env V) (m : PyVal → Out (Avg V)) (s : Seen) (c : Cls) (r : Avg V)
    (h : buildAvg E m s c = .ok r) : c.row.name ∈ r.names := by
  cases c
  all_goals first
    | (cases h; done)
    | (cases h; here)
    | skip
  case ewma =>
    simp only [buildAvg] at h
    split at h
    · cases h
    · split at h
      · obtain ⟨_, _, h⟩ := ok_bind h
        obtain rfl := ok_pure h
        here
      · cases h
  case ema =>
    simp only [buildAvg] at h
    split at h
    all_goals repeat (obtain ⟨_, _, h⟩ := ok_bind h)
    all_goals (obtain rfl := ok_pure h)
    all_goals here
  case t3 =>
    simp only [buildAvg] at h
    obtain ⟨_, _, h⟩ := ok_bind h
    split at h
    all_goals repeat (obtain ⟨_, _, h⟩ := ok_bind h)
    all_goals (obtain rfl := ok_pure h)
    all_goals here
  all_goals
    simp only [buildAvg] at h
    repeat (obtain ⟨_, _, h⟩ := ok_bind h)
    obtain rfl := ok_pure h
    here

theorem build_names (E : Env V) (s : Seen) (c : Cls) (r : Bta.Call V) (h : build E s c = .ok r)
    (hc : c ≠ .stochrsi ∨ s.talib = false) : c.row.name ∈ r.names := by
  cases c
  all_goals first
    | (cases h; done)
    | (cases h; here)
    | skip
  all_goals simp only [build, rad] at h
  case stochrsi =>
    have ht := hc.resolve_left (by simp)
    obtain ⟨_, _, h⟩ := ok_bind h
    rw [ht] at h
    split at h
    · rename_i e
      rw [← e] at h
      simp only [Bool.false_eq_true, if_false] at h
      repeat (obtain ⟨_, _, h⟩ := ok_bind h)
      obtain rfl := ok_pure h
      here
    · (obtain ⟨_, _, h⟩ := ok_bind h; cases h)
  all_goals obtain ⟨a, ha, h⟩ := ok_bind h
  all_goals try split at h
  all_goals repeat (obtain ⟨_, _, h⟩ := ok_bind h)
  all_goals obtain rfl := ok_pure h
  all_goals first
    | here
    | exact buildAvg_names E _ s _ _ ha

theorem outputNames_eq (c : Cls) : outputNames c = Spec.outputs c := by
  cases c <;> rfl

theorem mem_all (c : Cls) : c ∈ Cls.all := by
  cases c <;> decide +kernel

set_option maxRecDepth 100000 in
theorem declared_eq : ∀ c ∈ Cls.all, Bta.Spec.declaredOutputs c.row.name = Spec.outputs c := by
  decide +kernel

/-- **C120** A call which gives a result gives a line for each documented output, for all keywords and data (`stochrsi` with
ta-lib compatibility is the exception, see `C120_outputs_stochrsi`). -/
theorem C120_outputs (E : Env V) (cfg : Config) (low : String → String) (c : Cls) (args : List (Arg V))
    (kw : Dict String PyVal) (r : List (Line V)) (h : invoke E cfg low c args kw = .ok r)
    (hc : c ≠ .stochrsi ∨ (talibFlag E.talib kw).1 = false) : r.length = (Spec.outputs c).length := by
  obtain ⟨b, _, h⟩ := ok_bind h
  split at h
  · obtain ⟨s, hs, h⟩ := ok_bind h
    obtain ⟨m, hm, h⟩ := ok_bind h
    have hrun : m.run (nth (inputsOf c b.1)) = .ok r := by
      cases hx : m.run (nth (inputsOf c b.1)) with
      | error e => rw [hx] at h; cases h
      | ok a => rw [hx] at h; injection h with h; rw [h]
    have ht : s.talib = (talibFlag E.talib kw).1 := by
      unfold resolve at hs
      obtain ⟨_, _, hs⟩ := ok_bind hs
      obtain rfl := ok_pure hs
      rfl
    rw [C86_outputs m _ r hrun c.row.name (build_names E s c m hm (by rw [ht]; exact hc)), declared_eq c (mem_all c)]
  · obtain ⟨_, _, h⟩ := ok_bind h
    cases h

/-- **C120** `stochrsi` with ta-lib compatibility has a second output. -/
theorem C120_outputs_stochrsi (E : Env V) (cfg : Config) (low : String → String) (args : List (Arg V))
    (kw : Dict String PyVal) (r : List (Line V)) (h : invoke E cfg low .stochrsi args kw = .ok r)
    (hc : (talibFlag E.talib kw).1 = true) : r.length = 2 := by
  obtain ⟨b, _, h⟩ := ok_bind h
  split at h
  · obtain ⟨s, hs, h⟩ := ok_bind h
    obtain ⟨m, hm, h⟩ := ok_bind h
    have hrun : m.run (nth (inputsOf .stochrsi b.1)) = .ok r := by
      cases hx : m.run (nth (inputsOf .stochrsi b.1)) with
      | error e => rw [hx] at h; cases h
      | ok a => rw [hx] at h; injection h with h; rw [h]
    have ht : s.talib = true := by
      unfold resolve at hs
      obtain ⟨_, _, hs⟩ := ok_bind hs
      obtain rfl := ok_pure hs
      exact hc
    simp only [build] at hm
    obtain ⟨_, _, hm⟩ := ok_bind hm
    obtain ⟨_, _, hm⟩ := ok_bind hm
    rw [ht] at hm
    split at hm
    · rename_i e
      rw [← e] at hm
      simp only [if_true] at hm
      repeat (obtain ⟨_, _, hm⟩ := ok_bind hm)
      obtain rfl := ok_pure hm
      exact twoE_length hrun
    · cases hm
  · obtain ⟨_, _, h⟩ := ok_bind h
    cases h

/-! ## Concrete -/

/-- `str.lower` for the names below -/
def low0 : String → String
  | "Volume" => "volume"
  | "HIGH" => "high"
  | "Low" => "low"
  | "Close" => "close"
  | n => n

/-- plain numbers -/
def fins (l : List ℚ) : List Q := l.map Ext.fin

/-- a frame with its columns in an unusual order, with one more column -/
def frame0 : Frame Q :=
  ⟨[("Volume", fins [9, 9, 9]), ("Close", fins [3, 6, 9]), ("adj", fins [1, 1, 1]), ("Low", fins [1, 2, 3]), ("HIGH", fins [5, 10, 15])]⟩

example : (Spec.inputs .typprice).mapM (Spec.column low0 frame0) = some [fins [5, 10, 15], fins [1, 2, 3], fins [3, 6, 9]] := by
  decide +kernel

example : invoke E0 defaultConfig low0 .typprice [.frame frame0] [] = .ok [mk [3, 6, 9]] := by decide +kernel

example : invoke E0 defaultConfig low0 .sma [.frame frame0] [("period", .int 2)] = .ok [⟨nan :: fins [9 / 2, 15 / 2], 2⟩] := by
  decide +kernel

/-- `sub(df)`: volume - close here, the first two columns. -/
example : invoke E0 defaultConfig low0 .sub [.frame frame0] [] = .ok [mk [6, 3, 0]] := by decide +kernel

example : invoke E0 defaultConfig low0 .add [.series (fins [1, 2]), .series (fins [3, 4])] [] = .ok [mk [4, 6]] := by decide +kernel

example : invoke E0 defaultConfig low0 .add [.holder [mk [1, 2], mk [3, 4], mk [0, 0]]] [] = .ok [mk [4, 6]] := by decide +kernel

example : invoke E0 defaultConfig low0 .add [.series (fins [1, 2])] [] = .error (.py .multiDimType) := by decide +kernel

example : invoke E0 defaultConfig low0 .sma [.series (fins [1, 2]), .series (fins [3, 4])] [] = .error (.py .typeError) := by
  decide +kernel

example : Spec.oneOrTwo .mama = true ∧ 2 ≤ (Spec.inputs .add).length := by decide

example : (invoke E0 defaultConfig low0 .stochrsi [.series (fins [1, 2])] [("_talib", .bool true), ("period", .int 1)]).toOption.map
    List.length = some 2 := by decide +kernel

end Bta.Api
