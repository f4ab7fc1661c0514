import Verif.Ind.Catalog

/-!
# Line operations commute with functions applied bar by bar

`lmap σ a` is the line `a` with `σ` applied to each value.  An operation with a function `f'` on mapped operands is the
mapped result of the operation with `f`, if `f' (σ x) (τ y) = ρ (f x y)`.  Nothing is asked of the lines.
-/

set_option linter.unusedSectionVars false
set_option linter.unusedVariables false

namespace Bta
open Line

/-- `σ` applied to each value, the minimum period kept -/
def lmap {α β : Type} (σ : α → β) (a : Line α) : Line β := ⟨a.series.map σ, a.minperiod⟩

section generic
variable {α β γ α' β' γ' : Type} {σ : α → α'} {τ : β → β'} {ρ : γ → γ'}

theorem lmap_id (a : Line α) : lmap (fun x => x) a = a := by
  cases a; simp [lmap]

theorem pyFrom_map (s : List α) (i : Int) : pyFrom (s.map σ) i = (pyFrom s i).map σ := by
  simp [pyFrom, List.map_drop]

theorem pySlice_map (s : List α) (i j : Int) : pySlice (s.map σ) i j = (pySlice s i j).map σ := by
  simp [pySlice, List.map_drop, List.map_take]

theorem pyGet_map (s : List α) (i : Int) : pyGet (s.map σ) i = (pyGet s i).map σ := by
  unfold pyGet
  simp only [List.length_map, List.getElem?_map]
  split
  · rfl
  · split <;> rfl

theorem setFrom_map (n : ℕ) (fill : α) (i : Int) (r : List α) :
    setFrom n (σ fill) i (r.map σ) = (setFrom n fill i r).map σ := by
  simp [setFrom]

theorem pyFill_map (s : List α) (i j : Int) (v : α) : pyFill (s.map σ) i j (σ v) = (pyFill s i j v).map σ := by
  simp [pyFill, List.map_drop, List.map_take]

theorem zipWith_map2 {f : α → β → γ} {f' : α' → β' → γ'} (h : ∀ x y, f' (σ x) (τ y) = ρ (f x y)) (xs : List α) (ys : List β) :
    List.zipWith f' (xs.map σ) (ys.map τ) = (List.zipWith f xs ys).map ρ := by
  rw [List.zipWith_map, List.map_zipWith]
  congr 1
  funext x y
  exact h x y

theorem lmap_binop {f : α → β → γ} {f' : α' → β' → γ'} {fill : γ} {fill' : γ'} (hf : fill' = ρ fill)
    (h : ∀ x y, f' (σ x) (τ y) = ρ (f x y)) (a : Line α) (b : Line β) :
    binop f' fill' (lmap σ a) (lmap τ b) = lmap ρ (binop f fill a b) := by
  simp only [binop, lmap, clone, pyFrom_map, List.length_map, zipWith_map2 h, hf, setFrom_map]
  rfl

theorem lmap_binopS {f : α → β → γ} {f' : α' → β' → γ'} {fill : γ} {fill' : γ'} {c : β} {c' : β'} (hf : fill' = ρ fill)
    (h : ∀ x, f' (σ x) c' = ρ (f x c)) (a : Line α) :
    binopS f' fill' (lmap σ a) c' = lmap ρ (binopS f fill a c) := by
  simp only [binopS, lmap, clone, pyFrom_map, List.length_map, hf]
  congr 1
  rw [← setFrom_map, List.map_map, List.map_map]
  congr 2
  funext x
  exact h x

theorem lmap_stdop {g : List α → List γ} {g' : List α' → List γ'} {fill : γ} {fill' : γ'} {inc : Int} (hf : fill' = ρ fill)
    (h : ∀ xs, g' (xs.map σ) = (g xs).map ρ) (a : Line α) :
    stdop g' fill' inc (lmap σ a) = lmap ρ (stdop g fill inc a) := by
  simp only [stdop, lmap, clone, pyFrom_map, List.length_map, hf, h, setFrom_map]
  rfl

theorem lmap_stdop2 {g : List α → List β → List γ} {g' : List α' → List β' → List γ'} {fill : γ} {fill' : γ'}
    (hf : fill' = ρ fill) (h : ∀ xs ys, g' (xs.map σ) (ys.map τ) = (g xs ys).map ρ) (a : Line α) (b : Line β) :
    stdop2 g' fill' (lmap σ a) (lmap τ b) = lmap ρ (stdop2 g fill a b) := by
  simp only [stdop2, lmap, clone, pyFrom_map, List.length_map, hf, h, setFrom_map]
  rfl

theorem lmap_apply {g : List α → List γ} {g' : List α' → List γ'} {fill : γ} {fill' : γ'} (hf : fill' = ρ fill)
    (h : ∀ xs, g' (xs.map σ) = (g xs).map ρ) (a : Line α) :
    apply g' fill' (lmap σ a) = lmap ρ (apply g fill a) := by
  simp only [apply, lmap, clone, pyFrom_map, List.length_map, hf, h, setFrom_map]
  rfl

theorem window_map (w i : ℕ) (xs : List α) : window w i (xs.map σ) = (window w i xs).map σ := by
  simp [window, List.map_drop, List.map_take]

end generic

section values
variable {V : Type} [PyFloat V] {α : Type} {σ τ ρ : V → V}

theorem rollL_map {w : ℕ} {agg agg' : List V → V} (hn : ρ nan = nan) (h : ∀ l, agg' (l.map σ) = ρ (agg l)) (xs : List V) :
    rollL w agg' (xs.map σ) = (rollL w agg xs).map ρ := by
  simp only [rollL, List.length_map, List.map_map, window_map]
  refine List.map_congr_left fun i _ => ?_
  simp only [Function.comp]
  split
  · exact hn.symm
  · exact h _

theorem lmap_rolling {w : ℕ} {agg agg' : List V → V} (hn : ρ nan = nan) (h : ∀ l, agg' (l.map σ) = ρ (agg l)) (a : Line V) :
    rolling w agg' (lmap σ a) = lmap ρ (rolling w agg a) := by
  simp only [rolling, lmap, clone, pyFrom_map, List.length_map, rollL_map hn h]
  rw [← setFrom_map, hn]
  rfl

theorem zip_map (xs ys : List V) : List.zip (xs.map σ) (ys.map τ) = (List.zip xs ys).map (fun q => (σ q.1, τ q.2)) := by
  rw [List.zip_map]; rfl

theorem lmap_rolling2 {w : ℕ} {agg agg' : List (V × V) → V} (hn : ρ nan = nan)
    (h : ∀ l : List (V × V), agg' (l.map fun q => (σ q.1, τ q.2)) = ρ (agg l)) (a b : Line V) :
    rolling2 w agg' (lmap σ a) (lmap τ b) = lmap ρ (rolling2 w agg a b) := by
  simp only [rolling2, lmap, clone, pyFrom_map, List.length_map, zip_map]
  rw [← setFrom_map, hn]
  congr 2
  simp only [rollL, List.length_map, List.map_map, window_map]
  refine List.map_congr_left fun i _ => ?_
  simp only [Function.comp]
  split
  · exact hn.symm
  · exact h _

theorem lmap_period {inc : Int} {val val' : Option V} (hv : val' = val.map σ) (a : Line V) :
    period inc val' (lmap σ a) = lmap σ (period inc val a) := by
  subst hv
  unfold period
  by_cases hi : inc = 0
  · rw [if_pos hi, if_pos hi]
  · rw [if_neg hi, if_neg hi]
    cases val with
    | none => simp [lmap]
    | some v =>
      simp only [lmap, Option.map_some]
      by_cases hl : a.minperiod - 1 + inc < a.minperiod - 1
      · simp only [if_pos hl, pyFill_map]
      · simp only [if_neg hl, pyFill_map]

theorem shiftL_map (hn : σ nan = nan) (k : Int) (xs : List V) : shiftL k (xs.map σ) = (shiftL k xs).map σ := by
  unfold shiftL
  split <;> simp [List.map_take, List.map_drop, hn]

theorem lmap_shift (hn : σ nan = nan) (k : Int) (a : Line V) : shift k (lmap σ a) = lmap σ (shift k a) :=
  lmap_stdop hn.symm (shiftL_map hn k) a

theorem lmap_ago (hn : σ nan = nan) (k : Int) (a : Line V) : ago k (lmap σ a) = lmap σ (ago k a) := by
  unfold ago
  by_cases hk : k = 0
  · rw [if_pos hk, if_pos hk]; simp [lmap, clone, hn]
  · rw [if_neg hk, if_neg hk]; exact lmap_shift hn _ a

theorem diffL_map (hn : ρ nan = nan) (h : ∀ x y, σ x - σ y = ρ (x - y)) (k : ℕ) (xs : List V) :
    diffL k (xs.map σ) = (diffL k xs).map ρ := by
  unfold diffL
  rw [List.map_append, ← List.map_drop, zipWith_map2 (f := fun x y => x - y) (f' := fun x y => x - y) h]
  simp [hn]

theorem lmap_diff (hn : ρ nan = nan) (h : ∀ x y, σ x - σ y = ρ (x - y)) (k : ℕ) (a : Line V) :
    diff k (lmap σ a) = lmap ρ (diff k a) :=
  lmap_stdop hn.symm (diffL_map hn h k) a

theorem lmap_mapOp {f f' : V → V} (hn : ρ nan = nan) (h : ∀ x, f' (σ x) = ρ (f x)) (a : Line V) :
    mapOp f' (lmap σ a) = lmap ρ (mapOp f a) :=
  lmap_stdop hn.symm (fun xs => by simp only [List.map_map]; exact List.map_congr_left fun x _ => h x) a

/-- results of calculations which may raise -/
def emap (σ : V → V) (x : Except Err (Line V)) : Except Err (Line V) := x.map (lmap σ)

/-- `σ` commutes with sums, and with what the seeds of `_ewm` need -/
structure SeedOk (σ : V → V) : Prop where
  nan : σ nan = nan
  zero : σ (lit 0) = lit 0
  isNaN : ∀ x, isNaN (σ x) = isNaN x
  add : ∀ x y, σ x + σ y = σ (x + y)
  divn : ∀ (x : V) (n : ℚ), σ x / lit n = σ (x / lit n)

theorem SeedOk.foldl (h : SeedOk σ) : ∀ (xs : List V) (z : V), (xs.map σ).foldl (· + ·) (σ z) = σ (xs.foldl (· + ·) z)
  | [], z => rfl
  | x :: xs, z => by
    simp only [List.map_cons, List.foldl_cons]
    rw [h.add]; exact SeedOk.foldl h xs _

theorem SeedOk.sumV (h : SeedOk σ) (xs : List V) : sumV (xs.map σ) = σ (sumV xs) := by
  unfold Bta.sumV
  have := h.foldl xs (lit 0)
  rw [h.zero] at this
  exact this

theorem SeedOk.filter (h : SeedOk σ) (xs : List V) :
    (xs.map σ).filter (fun x => !Bta.isNaN x) = (xs.filter fun x => !Bta.isNaN x).map σ := by
  rw [List.filter_map]
  congr 1
  exact List.filter_congr fun x _ => by simp [h.isNaN]

theorem SeedOk.sum (h : SeedOk σ) (xs : List V) : sumSkipNa (xs.map σ) = σ (sumSkipNa xs) := by
  unfold sumSkipNa
  rw [h.filter, h.sumV]

theorem SeedOk.mean (h : SeedOk σ) (xs : List V) : meanSkipNa (xs.map σ) = σ (meanSkipNa xs) := by
  unfold meanSkipNa
  simp only [h.filter, List.isEmpty_map, List.length_map]
  split
  · exact h.nan.symm
  · rw [h.sumV, h.divn]

theorem ewmPrefix_map (h : SeedOk σ) (a : Line V) (seed : Seed) (p1 pidx p2 : Int) :
    ewmPrefix (lmap σ a) seed p1 pidx p2 = (ewmPrefix a seed p1 pidx p2).map (List.map σ) := by
  have key : ∀ (n : ℕ) (v : V), (if (List.replicate n (nan : V)).isEmpty then .error .indexError
      else .ok ((List.replicate n (nan : V)).dropLast ++ [σ v]) : Except Err (List V)) =
      Except.map (List.map σ) (if (List.replicate n (nan : V)).isEmpty then .error .indexError
      else .ok ((List.replicate n (nan : V)).dropLast ++ [v])) := by
    intro n v
    split
    · rfl
    · simp [Except.map, h.nan]
  unfold ewmPrefix
  cases seed with
  | avg => simp only [lmap, List.length_map, pySlice_map, h.mean]; exact key _ _
  | last =>
    simp only [lmap, List.length_map, pyGet_map]
    cases pyGet a.series pidx with
    | none => rfl
    | some v => exact key _ _
  | sum => simp only [lmap, List.length_map, pySlice_map, h.sum]; exact key _ _
  | none => simp [lmap, Except.map, h.nan]
  | zero =>
    have := key (pyStart a.series.length p2 - pyStart a.series.length pidx) (lit 0)
    rw [h.zero] at this
    simpa only [lmap, List.length_map] using this
  | zfill => simp [lmap, Except.map, h.zero]

theorem ewm_map (h : SeedOk σ) (c : EwmCfg) {op op' : List V → Except Err (List V)}
    (ho : ∀ t, op' (t.map σ) = (op t).map (List.map σ)) (a : Line V) :
    (match ewmNew c (lmap σ a) with | .error e => .error e | .ok o => ewmCall c (lmap σ a) o op') =
      emap σ (match ewmNew c a with | .error e => .error e | .ok o => ewmCall c a o op) := by
  unfold ewmNew
  simp only [ewmPrefix_map h, show (lmap σ a).minperiod = a.minperiod from rfl]
  cases ewmPrefix a c.seed (c.p2 a.minperiod - c.pval) (c.p2 a.minperiod - 1) (c.p2 a.minperiod) with
  | error e => rfl
  | ok pre =>
    simp only [Except.map, show (lmap σ a).series = a.series.map σ from rfl, pyFrom_map, ← List.map_append]
    unfold ewmCall
    simp only [ho, show (lmap σ a).minperiod = a.minperiod from rfl, show (lmap σ a).series = a.series.map σ from rfl,
      List.length_map]
    cases op (pre ++ pyFrom a.series (c.p2 a.minperiod)) with
    | error e => rfl
    | ok r =>
      simp only [Except.map, List.length_map]
      split
      · simp only [emap, Except.map, lmap, clone]
        rw [← setFrom_map, h.nan]
      · rfl

end values

end Bta
