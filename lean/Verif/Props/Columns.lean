import Verif.Props.Inputs

/-!
# The rule by which the columns of a DataFrame are given to the inputs (C96)
-/

set_option linter.unusedSectionVars false
set_option linter.unusedVariables false

/-! ## Specification -/

namespace Spec

open Bta.Meta (ColRef)

/-- `c` is the number of the first column named `s`. -/
def FirstNamed (cols : List String) (s : String) (c : Nat) : Prop := cols[c]? = some s ∧ ∀ j < c, cols[j]? ≠ some s

/-- Column `c` exists and was not given away yet. -/
def Avail (cols : List String) (taken : List Int) (c : Nat) : Prop := c < cols.length ∧ (c : Int) ∉ taken

/-- The configuration `conf` of the input (column number, column name, or nothing) stands for column `c`. -/
def Configured (cols : List String) (conf : Option ColRef) (c : Nat) : Prop :=
  conf = some (.num c) ∨ ∃ s, conf = some (.str s) ∧ FirstNamed cols s c

/-- The column for one input, as documented (0. configured indices first, if so ordered; 1. by name; 2. configured
indices; 3. next free column): `first` is `OHLC_FIRST`, `taken` the columns of the inputs before. -/
inductive Column (first : Bool) (conf : Option ColRef) (cols : List String) (taken : List Int) (inp : String) (c : Nat) : Prop
  | indexFirst (h0 : first = true) (h : Configured cols conf c) (ha : Avail cols taken c)
  | byName (h0 : ¬ (first = true ∧ ∃ d, Configured cols conf d ∧ Avail cols taken d)) (h : FirstNamed cols inp c)
      (ha : Avail cols taken c)
  | byIndex (h0 : first = false) (h1 : inp ∉ cols) (h : Configured cols conf c) (ha : Avail cols taken c)
  | nextFree (h0 : ¬ ∃ d, FirstNamed cols inp d ∧ Avail cols taken d)
      (h1 : inp ∉ cols ∨ first = true → ¬ ∃ d, Configured cols conf d ∧ Avail cols taken d)
      (ha : Avail cols taken c) (hl : ∀ j < c, ¬ Avail cols taken j)

end Spec

namespace Bta.Meta

open Py
open _root_.Spec (FirstNamed Avail Configured Column)

/-! ## Lemmas -/

theorem index?_firstNamed {cols : List String} {s : String} {c : Nat} : index? cols s = some c ↔ FirstNamed cols s c := by
  constructor
  · exact fun h => index?_some h
  · rintro ⟨h1, h2⟩
    obtain ⟨d, hd⟩ := index?_isSome (List.mem_of_getElem? h1)
    obtain ⟨e1, e2⟩ := index?_some hd
    have : c = d := by
      rcases Nat.lt_trichotomy c d with h | h | h
      · exact absurd h1 (e2 c h)
      · exact h
      · exact absurd e1 (h2 d h)
    rw [this]; exact hd

/-- The column number the configuration gives, if it is one. -/
theorem configIdx_spec {cfg : Config} {cols : List String} {inp : String} {i : Int} (h : configIdx cfg cols inp = .ok i)
    (c : Nat) : Configured cols (get? cfg.indices inp) c ↔ i = (c : Int) := by
  unfold configIdx at h
  unfold Configured
  cases hg : get? cfg.indices inp with
  | none =>
    simp only [hg, Except.ok.injEq] at h
    subst h
    simp
  | some r =>
    cases r with
    | num j =>
      simp only [hg, Except.ok.injEq] at h
      subst h
      simp
    | str s =>
      simp only [hg] at h
      cases hs : index? cols s with
      | none => simp [hs] at h
      | some j =>
        simp only [hs, Except.ok.injEq] at h
        subst h
        simp only [Option.some.injEq, ColRef.str.injEq, reduceCtorEq, false_or, Int.natCast_inj]
        constructor
        · rintro ⟨s', rfl, h'⟩
          rw [index?_firstNamed.2 h'] at hs
          simpa using hs.symm
        · rintro rfl
          exact ⟨s, rfl, index?_firstNamed.1 hs⟩

/-- The loop takes, for an input, the wanted column or the least free one. -/
theorem takeIdx_least {free free' : List Int} {i j : Int} (hs : free.Pairwise (· > ·)) (h : takeIdx free i = .ok (j, free')) :
    free' = free.erase j ∧ (i ∉ free → ∀ x ∈ free, j ≤ x) := by
  unfold takeIdx at h
  cases hr : remove? free i with
  | some f =>
    simp only [hr, Except.ok.injEq, Prod.mk.injEq] at h
    obtain ⟨rfl, rfl⟩ := h
    obtain ⟨h1, h2, h3⟩ := remove?_some hr
    exact ⟨h3, fun hi => absurd h1 hi⟩
  | none =>
    simp only [hr] at h
    unfold pop? at h
    cases hl : free.getLast? with
    | none => simp [hl] at h
    | some x =>
      simp only [hl, Option.map_some, Except.ok.injEq, Prod.mk.injEq] at h
      obtain ⟨rfl, rfl⟩ := h
      have hne : free ≠ [] := by rintro rfl; simp at hl
      have hx : free.getLast hne = x := by
        rw [List.getLast?_eq_some_getLast hne] at hl
        simpa using hl
      have hd : free = free.dropLast ++ [x] := by rw [← hx]; exact (List.dropLast_append_getLast hne).symm
      rw [hd, List.pairwise_append] at hs
      have hni : x ∉ free.dropLast := fun hm => absurd (hs.2.2 x hm x (by simp)) (by omega)
      refine ⟨?_, fun _ y hy => ?_⟩
      · conv_rhs => rw [hd]
        rw [List.erase_append_right _ hni]
        simp
      · rw [hd] at hy
        rcases List.mem_append.1 hy with h | h
        · have := hs.2.2 y h x (by simp)
          omega
        · simp at h; omega

/-- One round of the loop follows the rule. -/
theorem round_rule {cfg : Config} {cols : List String} {taken free free' : List Int} {inp : String} {i j : Int}
    (hs : free.Pairwise (· > ·)) (hf : ∀ x : Int, x ∈ free ↔ 0 ≤ x ∧ x < cols.length ∧ x ∉ taken)
    (hw : wantedIdx cfg cols free inp = .ok i) (ht : takeIdx free i = .ok (j, free')) :
    ∃ c : Nat, j = c ∧ Column cfg.ohlcFirst (get? cfg.indices inp) cols taken inp c := by
  obtain ⟨hj, _, _, _, hji, _⟩ := takeIdx_ok ht
  have hav : ∀ c : Nat, Avail cols taken c ↔ (c : Int) ∈ free := by
    intro c
    rw [hf]
    unfold Avail
    constructor
    · rintro ⟨h1, h2⟩; exact ⟨by omega, by omega, h2⟩
    · rintro ⟨_, h1, h2⟩; exact ⟨by omega, h2⟩
  obtain ⟨c, rfl⟩ : ∃ c : Nat, j = c := ⟨j.toNat, by have := (hf j).1 hj; omega⟩
  refine ⟨c, rfl, ?_⟩
  have hac : Avail cols taken c := (hav c).2 hj
  have hleast : i ∉ free → ∀ k < c, ¬ Avail cols taken k := by
    intro hi k hk ha
    have := (takeIdx_least hs ht).2 hi k ((hav k).1 ha)
    omega
  have hneg : (-1 : Int) ∉ free := fun h => by have := (hf _).1 h; omega
  unfold wantedIdx at hw
  -- what is left once the ordering step did not find anything
  have tail : (¬ (cfg.ohlcFirst = true ∧ ∃ d, Configured cols (get? cfg.indices inp) d ∧ Avail cols taken d)) →
      (match index? cols inp with
        | some j => Except.ok (j : Int)
        | none => configIdx cfg cols inp) = .ok i →
      Column cfg.ohlcFirst (get? cfg.indices inp) cols taken inp c := by
    intro h0 hw
    cases hx : index? cols inp with
    | some d =>
      simp only [hx, Except.ok.injEq] at hw
      subst hw
      by_cases hi : (d : Int) ∈ free
      · have : c = d := by have := hji hi; omega
        subst this
        exact .byName h0 (index?_firstNamed.1 hx) hac
      · refine .nextFree ?_ ?_ hac (hleast hi)
        · rintro ⟨e, h1, h2⟩
          rw [← index?_firstNamed, hx] at h1
          simp only [Option.some.injEq] at h1
          subst h1
          exact hi ((hav _).1 h2)
        · rintro (h | h)
          · exact absurd (List.mem_of_getElem? (index?_some hx).1) h
          · exact fun he => h0 ⟨h, he⟩
    | none =>
      simp only [hx] at hw
      have hni := index?_none.1 hx
      have hcs := configIdx_spec hw
      by_cases hi : i ∈ free
      · have hc : Configured cols (get? cfg.indices inp) c := (hcs c).2 (by rw [hji hi])
        cases hff : cfg.ohlcFirst with
        | true => exact absurd ⟨hff, c, hc, hac⟩ h0
        | false => exact .byIndex rfl hni hc hac
      · refine .nextFree ?_ ?_ hac (hleast hi)
        · rintro ⟨e, h1, _⟩
          exact hni (List.mem_of_getElem? h1.1)
        · rintro _ ⟨e, h1, h2⟩
          rw [hcs] at h1
          subst h1
          exact hi ((hav _).1 h2)
  cases hff : cfg.ohlcFirst with
  | false =>
    simp only [hff, Bool.false_eq_true, if_false, bind, Except.bind] at hw
    rw [if_neg hneg] at hw
    rw [hff] at tail
    exact tail (by simp) hw
  | true =>
    simp only [hff, if_true, bind, Except.bind] at hw
    rw [hff] at tail
    cases hcf : configIdx cfg cols inp with
    | error e => simp [hcf] at hw
    | ok m =>
      simp only [hcf] at hw
      have hcs := configIdx_spec hcf
      by_cases hm : m ∈ free
      · rw [if_pos hm] at hw
        simp only [Except.ok.injEq] at hw
        subst hw
        exact .indexFirst rfl ((hcs c).2 (by rw [hji hm])) hac
      · rw [if_neg hm] at hw
        refine tail ?_ (by rw [hcf]; exact hw)
        rintro ⟨_, d, h1, h2⟩
        rw [hcs] at h1
        subst h1
        exact hm ((hav _).1 h2)

theorem bindLoop_rule {cfg : Config} {cols : List String} {inps : List String} {taken free idx : List Int}
    (hs : free.Pairwise (· > ·)) (hf : ∀ x : Int, x ∈ free ↔ 0 ≤ x ∧ x < cols.length ∧ x ∉ taken)
    (h : bindLoop cfg cols inps free = .ok idx) (k : Nat) (inp : String) (hk : inps[k]? = some inp) :
    ∃ c : Nat, idx[k]? = some (c : Int) ∧
      Column cfg.ohlcFirst (get? cfg.indices inp) cols (taken ++ idx.take k) inp c := by
  induction inps generalizing free idx taken k with
  | nil => simp at hk
  | cons a inps ih =>
    simp only [bindLoop, bind, Except.bind] at h
    cases hw : wantedIdx cfg cols free a with
    | error e => simp [hw] at h
    | ok i =>
      simp only [hw] at h
      cases ht : takeIdx free i with
      | error e => simp [ht] at h
      | ok r =>
        obtain ⟨j, free'⟩ := r
        simp only [ht] at h
        cases hb : bindLoop cfg cols inps free' with
        | error e => simp [hb] at h
        | ok rest =>
          simp only [hb, Except.ok.injEq] at h
          subst h
          have he := (takeIdx_least hs ht).1
          cases k with
          | zero =>
            simp only [List.getElem?_cons_zero, Option.some.injEq] at hk
            subst hk
            obtain ⟨c, rfl, hc⟩ := round_rule hs hf hw ht
            exact ⟨c, by simp, by simpa using hc⟩
          | succ k =>
            simp only [List.getElem?_cons_succ] at hk
            have hnd : free.Nodup := hs.imp (fun {a b} (h : a > b) => by omega)
            obtain ⟨c, h1, h2⟩ := ih (taken := taken ++ [j]) (free := free')
              (by rw [he]; exact hs.sublist List.erase_sublist)
              (by
                intro x
                rw [he, hnd.mem_erase_iff, hf]
                simp only [List.mem_append, List.mem_singleton, not_or]
                constructor
                · rintro ⟨a1, a2, a3, a4⟩; exact ⟨a2, a3, a4, a1⟩
                · rintro ⟨a2, a3, a4, a1⟩; exact ⟨a1, a2, a3, a4⟩) hb k hk
            refine ⟨c, by simpa using h1, ?_⟩
            simpa [List.append_assoc] using h2

/-! ## C96 -/

/-- C96.  The column number of each input is the one of the documented rule, given the columns which the inputs before it
took (all column names, inputs and configurations, both orders). -/
theorem C96_rule (cfg : Config) (cols inputs : List String) (idx : List Int)
    (h : dataframeColumns cfg true cols inputs = .ok idx) (k : Nat) (inp : String) (hk : inputs[k]? = some inp) :
    ∃ c : Nat, idx[k]? = some (c : Int) ∧
      Column cfg.ohlcFirst (get? cfg.indices inp) cols (idx.take k) inp c := by
  have := bindLoop_rule (taken := []) (free := colIndices cols.length) ?_ ?_ (dataframeColumns_eq h) k inp hk
  · simpa using this
  · unfold colIndices
    rw [List.pairwise_map, List.pairwise_reverse]
    exact List.pairwise_lt_range.imp (fun {a b} h => by simpa using h)
  · intro x
    rw [mem_colIndices]
    simp

/-- C96.  The rule leaves no choice: two columns which satisfy it for the same input are the same. -/
theorem C96_unique (first : Bool) (conf : Option ColRef) (cols : List String) (taken : List Int) (inp : String) (c d : Nat)
    (hc : Column first conf cols taken inp c) (hd : Column first conf cols taken inp d) : c = d := by
  have hn : ∀ {s : String} {a b : Nat}, FirstNamed cols s a → FirstNamed cols s b → a = b := by
    intro s a b ha hb
    have := (index?_firstNamed.2 ha).symm.trans (index?_firstNamed.2 hb)
    simpa using this
  have hcc : ∀ {a b : Nat}, Configured cols conf a → Configured cols conf b → a = b := by
    rintro a b (rfl | ⟨s, rfl, ha⟩) (hb | ⟨t, hb, hb'⟩)
    · simpa using hb
    · simp at hb
    · simp at hb
    · simp only [Option.some.injEq, ColRef.str.injEq] at hb
      subst hb
      exact hn ha hb'
  have hmem : ∀ {s : String} {a : Nat}, FirstNamed cols s a → s ∈ cols := fun h => List.mem_of_getElem? h.1
  rcases hc with ⟨a0, a1, a2⟩ | ⟨a0, a1, a2⟩ | ⟨a0, a1, a2, a3⟩ | ⟨a0, a1, a2, a3⟩ <;>
    rcases hd with ⟨b0, b1, b2⟩ | ⟨b0, b1, b2⟩ | ⟨b0, b1, b2, b3⟩ | ⟨b0, b1, b2, b3⟩
  · exact hcc a1 b1
  · exact absurd ⟨a0, _, a1, a2⟩ b0
  · rw [a0] at b0; cases b0
  · exact absurd ⟨_, a1, a2⟩ (b1 (Or.inr a0))
  · exact absurd ⟨b0, _, b1, b2⟩ a0
  · exact hn a1 b1
  · exact absurd (hmem a1) b1
  · exact absurd ⟨_, a1, a2⟩ b0
  · rw [b0] at a0; cases a0
  · exact absurd (hmem b1) a1
  · exact hcc a2 b2
  · exact absurd ⟨_, a2, a3⟩ (b1 (Or.inl a1))
  · exact absurd ⟨_, b1, b2⟩ (a1 (Or.inr b0))
  · exact absurd ⟨_, b1, b2⟩ a0
  · exact absurd ⟨_, b2, b3⟩ (a1 (Or.inl b1))
  · rcases Nat.lt_trichotomy c d with h | h | h
    · exact absurd a2 (b3 c h)
    · exact h
    · exact absurd b2 (a3 d h)

variable {V : Type}

/-- C96 for the whole call: whenever an indicator with several inputs accepts a single DataFrame, input number `k` is the
column which the rule (on the lower case names) gives, with minimum period 1; the columns taken before it are those of the
inputs before it. -/
theorem C96_frame (cfg : Config) (low : String → String) (inputs : List String) (allow : Nat) (df : Frame V)
    (hn : inputs.Nodup) (h2 : 2 ≤ inputs.length) (ls : List (Line V)) (rest : List (Arg V)) (cls : InCls)
    (h : bindInputs cfg low true (InCls.fresh inputs allow) [.frame df] = .ok (ls, rest, cls)) :
    ∃ idx : List Nat, idx.length = inputs.length ∧ ls.length = inputs.length ∧
      ∀ k inp, inputs[k]? = some inp → ∃ c col, idx[k]? = some c ∧ df.cols[c]? = some col ∧ ls[k]? = some ⟨col.2, 1⟩ ∧
        Column cfg.ohlcFirst (get? cfg.indices inp) (df.cols.map (fun c => low c.1)) ((idx.take k).map Int.ofNat) inp c := by
  rw [bindInputs_frame cfg low true inputs allow df h2] at h
  simp only [bind, Except.bind] at h
  cases hd : dataframeColumns cfg true (df.cols.map (fun c => low c.1)) inputs with
  | error e =>
    have : fromFrame cfg low true df inputs = .error e := by
      unfold fromFrame
      rw [hd]
      rfl
    simp [this] at h
  | ok idx =>
    obtain ⟨b2, b4, _⟩ := bindLoop_ok _ _ (dataframeColumns_eq hd)
    have b4' : ∀ i ∈ idx, 0 ≤ i ∧ i < (df.cols.length : Int) := by
      intro i hi
      have := mem_colIndices.1 (b4 i hi)
      simpa using this
    have hff : fromFrame cfg low true df inputs = .ok (inputs.zip (frameLines df idx)) := by
      unfold fromFrame
      rw [hd]
      exact fromFrame_mapM df inputs idx b2 b4'
    have hl : inputLines (⟨inputs.zip (frameLines df idx), [], InCls.fresh inputs allow⟩ : Bound V)
        = .ok (frameLines df idx) :=
      slots_mapM hn (frameLines df idx) (by simp [frameLines, b2]) _
        (get?_zip_nodup hn _ (by simp [frameLines, b2]))
    have hls : ls = frameLines df idx := by
      rw [hff] at h
      simp only [hl] at h
      split at h
      · cases h
      · simp only [Except.ok.injEq, Prod.mk.injEq] at h
        exact h.1.symm
    have hcast : (idx.map Int.toNat).map Int.ofNat = idx := by
      rw [List.map_map]
      conv_rhs => rw [← List.map_id idx]
      refine List.map_congr_left (fun i hi => ?_)
      have := (b4' i hi).1
      simp only [Function.comp_apply, id_eq]
      exact Int.toNat_of_nonneg this
    refine ⟨idx.map Int.toNat, by simp [b2], by simp [hls, frameLines, b2], fun k inp hk => ?_⟩
    obtain ⟨c, h1, h3⟩ := C96_rule cfg _ inputs idx hd k inp hk
    have hc := b4' _ (List.mem_of_getElem? h1)
    have hcl : c < df.cols.length := by omega
    refine ⟨c, df.cols[c], by simp [h1], by simp [hcl], ?_, ?_⟩
    · rw [hls]
      simp [frameLines, h1, hcl, Line.ofSeries]
    · rw [List.map_take, hcast]
      exact h3

/-- C96 for an indicator with one input: the DataFrame contributes the first column of the input's name; without such a
column, the configured one if it exists; otherwise the first column. -/
theorem C96_single (cfg : Config) (low : String → String) (df : Frame V) (inp : String) (l : Line V)
    (hpos : ∀ i : Int, get? cfg.indices inp = some (.num i) → 0 ≤ i)
    (h : mkInput cfg low (.frame df) inp = .ok l) :
    ∃ c col, df.cols[c]? = some col ∧ l = ⟨col.2, 1⟩ ∧
      (FirstNamed (df.cols.map (fun c => low c.1)) inp c ∨
        inp ∉ df.cols.map (fun c => low c.1) ∧
          (get? cfg.indices inp = some (.num c) ∨
            c = 0 ∧ ∀ i : Nat, get? cfg.indices inp = some (.num i) → df.cols.length ≤ i)) := by
  have key : ∀ i : Int, 0 ≤ i → (do let xs ← df.iloc i; Except.ok (Line.ofSeries xs)) = .ok l →
      ∃ col, df.cols[i.toNat]? = some col ∧ l = ⟨col.2, 1⟩ := by
    intro i h0 h'
    by_cases hi : i < (df.cols.length : Int)
    · obtain ⟨c, hc, hi'⟩ := iloc_ok df h0 hi
      rw [hi'] at h'
      simp only [bind, Except.bind, Except.ok.injEq] at h'
      exact ⟨c, hc, h'.symm⟩
    · exfalso
      unfold Frame.iloc at h'
      simp only [] at h'
      rw [if_neg (by omega : ¬ i < 0), if_neg (by omega)] at h'
      simp [bind, Except.bind] at h'
  have h' : lineFromDataframe cfg low df inp = .ok l := h
  unfold lineFromDataframe at h'
  simp only [List.length_map] at h'
  cases hx : index? (df.cols.map (fun c => low c.1)) inp with
  | some d =>
    have hd := index?_lt hx
    simp only [List.length_map] at hd
    simp only [hx, bind, Except.bind] at h'
    rw [if_neg (by simp; omega)] at h'
    obtain ⟨col, a1, a2⟩ := key d (by omega) h'
    exact ⟨d, col, by simpa using a1, a2, Or.inl (index?_firstNamed.1 hx)⟩
  | none =>
    have hni := index?_none.1 hx
    cases hg : get? cfg.indices inp with
    | none =>
      simp only [hx, hg, bind, Except.bind] at h'
      rw [ite_self] at h'
      obtain ⟨col, a1, a2⟩ := key 0 (by omega) h'
      exact ⟨0, col, by simpa using a1, a2, Or.inr ⟨hni, Or.inr ⟨rfl, by simp⟩⟩⟩
    | some r =>
      cases r with
      | str s => simp [hx, hg, bind, Except.bind] at h'
      | num i =>
        have h0 := hpos i hg
        simp only [hx, hg, bind, Except.bind] at h'
        by_cases hi : i ≥ (df.cols.length : Int)
        · rw [if_pos hi] at h'
          obtain ⟨col, a1, a2⟩ := key 0 (by omega) h'
          refine ⟨0, col, by simpa using a1, a2, Or.inr ⟨hni, Or.inr ⟨rfl, fun j hj => ?_⟩⟩⟩
          simp only [Option.some.injEq, ColRef.num.injEq] at hj
          omega
        · rw [if_neg hi] at h'
          obtain ⟨col, a1, a2⟩ := key i h0 h'
          refine ⟨i.toNat, col, a1, a2, Or.inr ⟨hni, Or.inl ?_⟩⟩
          simp only [Option.some.injEq, ColRef.num.injEq]
          omega

/-- `sma(df)` on a frame without column `close` but with enough columns: the configured column 3. -/
example : (mkInput defaultConfig id (.frame ⟨[("a", [1]), ("b", [2]), ("c", [3]), ("d", [4])]⟩) "close" : Except Err (Line ℕ))
    = .ok ⟨[4], 1⟩ := by decide +kernel

example : (mkInput defaultConfig id (.frame ⟨[("a", [1]), ("b", [2])]⟩) "close" : Except Err (Line ℕ))
    = .ok ⟨[1], 1⟩ := by decide +kernel

/-- In the index-first mode an input without configured column is found by its name. -/
example : dataframeColumns { defaultConfig with ohlcFirst := true } true ["a", "b", "x", "y"] ["x", "high", "z"]
    = .ok [2, 1, 0] := by
  decide +kernel

/-- A name which is taken already does not go on to the configured column: `high` gets the next free one. -/
example : dataframeColumns (defaultConfig.setInputIndices [("q", .num 2), ("high", .num 3)]) true
    ["a", "b", "high", "d"] ["q", "high"] = .ok [2, 0] := by
  decide +kernel

end Bta.Meta
