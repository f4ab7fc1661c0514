import Verif.Lemmas.RelInst

/-!
# Lines with bars in front which are not delivered
-/

set_option linter.unusedSectionVars false
set_option linter.unusedVariables false

namespace Bta
open Line

variable {β γ δ V : Type} [PyFloat V]

/-- `l'` is `l` with `k` bars more in front, which it does not deliver -/
structure Late (k : ℕ) (l l' : Line β) : Prop where
  pos : 1 ≤ l.minperiod
  mp : l'.minperiod = l.minperiod + k
  ser : l'.series.drop k = l.series
  len : l'.series.length = l.series.length + k

section
variable {k : ℕ}

theorem Late.drop {s s' : List β} (h : s'.drop k = s) (i : ℕ) : s'.drop (i + k) = s.drop i := by
  rw [← h, List.drop_drop, Nat.add_comm]

theorem Late.pyFrom {l l' : Line β} (h : Late k l l') {i : Int} (hi : 0 ≤ i) :
    pyFrom l'.series (i + k) = Bta.pyFrom l.series i := by
  obtain ⟨j, rfl⟩ := Int.eq_ofNat_of_zero_le hi
  unfold Bta.pyFrom
  rw [show ((j : Int) + (k : Int)) = ((j + k : ℕ) : Int) by push_cast; rfl, pyStart_nat, pyStart_nat, h.len,
    show min (j + k) (l.series.length + k) = min j l.series.length + k by omega, Late.drop h.ser]

theorem Late.set (n : ℕ) (fill : γ) {i : Int} (hi : 0 ≤ i) (t : List γ) :
    (setFrom (n + k) fill (i + k) t).drop k = setFrom n fill i t ∧
      (setFrom (n + k) fill (i + k) t).length = (setFrom n fill i t).length + k := by
  obtain ⟨j, rfl⟩ := Int.eq_ofNat_of_zero_le hi
  unfold setFrom
  rw [show ((j : Int) + (k : Int)) = ((j + k : ℕ) : Int) by push_cast; rfl, pyStart_nat, pyStart_nat,
    show min (j + k) (n + k) = min j n + k by omega]
  constructor
  · rw [List.drop_append_of_le_length (by simp), List.drop_replicate, Nat.add_sub_cancel]
  · simp only [List.length_append, List.length_replicate]; omega

theorem Late.clone {l l' : Line β} (h : Late k l l') (fill : γ) {i p : Int} (hi : 0 ≤ i) (hp : 1 ≤ p) (t : List γ) :
    Late k (Line.clone l (setFrom l.series.length fill i t) p)
      (Line.clone l' (setFrom l'.series.length fill (i + k) t) (p + k)) := by
  have := Late.set (k := k) l.series.length fill hi t
  unfold Line.clone
  rw [if_neg (by omega), if_neg (by omega), h.len]
  exact ⟨hp, rfl, this.1, this.2⟩

theorem Late.up {l l' : Line β} (h : Late k l l') {j : Int} (hj : 0 ≤ j) :
    Late k (⟨l.series, l.minperiod + j⟩ : Line β) ⟨l'.series, l'.minperiod + j⟩ :=
  ⟨by have := h.pos; simp only; omega, by have := h.mp; simp only; omega, h.ser, h.len⟩

theorem Late.zip {x x' : Line β} {y y' : Line γ} (h : Late k x x') (g : Late k y y') (F : List β → List γ → List δ) {fill : δ} :
    Late k (stdop2 F fill x y) (stdop2 F fill x' y') := by
  have hp := h.pos
  have e : max x'.minperiod y'.minperiod = max x.minperiod y.minperiod + k := by rw [h.mp, g.mp]; omega
  unfold stdop2
  simp only [e]
  rw [show max x.minperiod y.minperiod + (k : Int) - 1 = (max x.minperiod y.minperiod - 1) + k by omega,
    h.pyFrom (by omega), g.pyFrom (by omega)]
  exact h.clone fill (by omega) (by omega) _

theorem Late.scal {x x' : Line β} (h : Late k x x') {F : β → γ → δ} {fill : δ} {c : γ} :
    Late k (binopS F fill x c) (binopS F fill x' c) := by
  have hp := h.pos
  have e : max x'.minperiod 1 = max x.minperiod 1 + k := by rw [h.mp]; omega
  unfold binopS
  simp only [e]
  rw [show max x.minperiod 1 + (k : Int) - 1 = (max x.minperiod 1 - 1) + k by omega, h.pyFrom (by omega)]
  exact h.clone fill (by omega) (by omega) _

theorem Late.app {x x' : Line β} (h : Late k x x') (g : List β → List γ) {fill : γ} :
    Late k (apply g fill x) (apply g fill x') := by
  have hp := h.pos
  unfold apply
  simp only [h.mp]
  rw [show x.minperiod + (k : Int) - 1 = (x.minperiod - 1) + k by omega, h.pyFrom (by omega)]
  exact h.clone fill (by omega) (by omega) _

theorem Late.tails {x x' : Line β} (h : Late k x x') :
    Bta.pyFrom x'.series (x'.minperiod - 1) = Bta.pyFrom x.series (x.minperiod - 1) := by
  have hp := h.pos
  rw [h.mp, show x.minperiod + (k : Int) - 1 = (x.minperiod - 1) + k by omega, h.pyFrom (by omega)]

theorem Late.std {x x' : Line β} (h : Late k x x') (g : List β → List γ) {fill : γ} {inc : ℕ} :
    Late k (stdop g fill inc x) (stdop g fill inc x') := (h.app g (fill := fill)).up (by omega)

theorem Late.std0 {x x' : Line β} (h : Late k x x') (g : List β → List γ) {fill : γ} :
    Late k (stdop g fill 0 x) (stdop g fill 0 x') := h.std g (inc := 0)

theorem Late.roll {x x' : Line β} (h : Late k x x') {w : ℕ} (hw : 1 ≤ w) (agg : List β → V) :
    Late k (Line.rolling w agg x) (Line.rolling w agg x') := by
  have hp := h.pos
  unfold Line.rolling
  simp only [h.mp]
  rw [show x.minperiod + (k : Int) - 1 = (x.minperiod - 1) + k by omega, h.pyFrom (by omega),
    show max (x.minperiod + (k : Int) + w - 1) 1 = max (x.minperiod + w - 1) 1 + k by omega]
  exact h.clone _ (by omega) (by omega) _

theorem Late.roll2 {x x' y y' : Line V} (h : Late k x x') (g : Late k y y') {w : ℕ} (hw : 1 ≤ w) (agg : List (V × V) → V) :
    Late k (Line.rolling2 w agg x y) (Line.rolling2 w agg x' y') := by
  have hp := h.pos
  unfold Line.rolling2
  simp only [h.mp]
  rw [show x.minperiod + (k : Int) - 1 = (x.minperiod - 1) + k by omega, h.pyFrom (by omega), g.pyFrom (by omega),
    show max (x.minperiod + (k : Int) + w - 1) 1 = max (x.minperiod + w - 1) 1 + k by omega]
  exact h.clone _ (by omega) (by omega) _

theorem Late.nothing {x x' : Line V} (h : Late k x x') :
    Late k (Line.clone x (List.replicate x.series.length (nan : V)) 0)
      (Line.clone x' (List.replicate x'.series.length (nan : V)) 0) := by
  unfold Line.clone
  rw [if_pos rfl, if_pos rfl]
  refine ⟨h.pos, h.mp, ?_, by simp [h.len]⟩
  simp only [List.drop_replicate, h.len, Nat.add_sub_cancel]

theorem Late.pyFill {s s' : List β} (h : s'.drop k = s) (hl : s'.length = s.length + k) {i j : ℕ} (hij : i ≤ j) (v : β) :
    (Bta.pyFill s' ((i + k : ℕ) : Int) ((j + k : ℕ) : Int) v).drop k = Bta.pyFill s (i : Int) (j : Int) v := by
  apply List.ext_getElem?
  intro q
  rw [List.getElem?_drop, pyFill_getN _ (by omega), pyFill_getN _ hij]
  have e : s'[k + q]? = s[q]? := by rw [← h, List.getElem?_drop]
  rw [e]
  by_cases hc : i ≤ q ∧ q < j ∧ q < s.length
  · rw [if_pos hc, if_pos (by omega)]
  · rw [if_neg hc, if_neg (by omega)]

theorem Late.back {x x' : Line V} (h : Late k x x') (h2 : 2 ≤ x.minperiod) (v : V) :
    Late k (period (-1) (some v) x) (period (-1) (some v) x') := by
  unfold period
  rw [if_neg (by omega), if_neg (by omega)]
  simp only []
  rw [if_pos (by omega), if_pos (by omega), h.mp]
  obtain ⟨j, hj⟩ : ∃ j : ℕ, x.minperiod = j + 2 := ⟨(x.minperiod - 2).toNat, by omega⟩
  rw [hj, show ((j : Int) + 2 + (k : Int) - 1 + -1) = ((j + k : ℕ) : Int) by push_cast; omega,
    show ((j : Int) + 2 + (k : Int) - 1) = ((j + 1 + k : ℕ) : Int) by push_cast; omega,
    show ((j : Int) + 2 - 1 + -1) = (j : Int) by omega, show ((j : Int) + 2 - 1) = ((j + 1 : ℕ) : Int) by push_cast; omega]
  refine ⟨by simp only; omega, by simp only; omega, Late.pyFill h.ser h.len (by omega) v, ?_⟩
  rw [pyFill_lenN _ (by omega), pyFill_lenN _ (by omega), h.len]

theorem Late.fill {x x' : Line V} (h : Late k x x') (m : ℕ) (v : V) :
    Late k (period m (some v) x) (period m (some v) x') := by
  unfold period
  by_cases hm : (m : Int) = 0
  · rw [if_pos hm, if_pos hm]; exact h
  rw [if_neg hm, if_neg hm]
  simp only []
  have hp := h.pos
  rw [if_neg (by omega), if_neg (by omega), h.mp]
  obtain ⟨j, hj⟩ : ∃ j : ℕ, x.minperiod = j + 1 := ⟨(x.minperiod - 1).toNat, by omega⟩
  rw [hj, show ((j : Int) + 1 + (k : Int) - 1 + m) = ((j + m + k : ℕ) : Int) by push_cast; omega,
    show ((j : Int) + 1 + (k : Int) - 1) = ((j + k : ℕ) : Int) by push_cast; omega,
    show ((j : Int) + 1 - 1 + m) = ((j + m : ℕ) : Int) by push_cast; omega, show ((j : Int) + 1 - 1) = ((j : ℕ) : Int) by omega]
  refine ⟨by simp only; omega, by simp only; omega, Late.pyFill h.ser h.len (by omega) v, ?_⟩
  rw [pyFill_lenN _ (by omega), pyFill_lenN _ (by omega), h.len]

theorem Late.per {x x' : Line V} (h : Late k x x') (j : ℕ) : Late k (period j none x) (period j none x') := by
  rw [period_none, period_none]; exact h.up (by omega)

theorem Late.pyGet {s s' : List V} (h : s'.drop k = s) {i : Int} (hi : 0 ≤ i) : pyGet s' (i + k) = Bta.pyGet s i := by
  obtain ⟨j, rfl⟩ := Int.eq_ofNat_of_zero_le hi
  unfold Bta.pyGet
  rw [if_pos hi, if_pos (by omega), show ((j : Int) + (k : Int)).toNat = k + j by omega, ← List.getElem?_drop, h]
  rfl

theorem Late.pySlice {s s' : List V} (h : s'.drop k = s) (hl : s'.length = s.length + k) (i j : ℕ) :
    pySlice s' ((i : Int) + k) ((j : Int) + k) = Bta.pySlice s i j := by
  unfold Bta.pySlice
  rw [show ((i : Int) + (k : Int)) = ((i + k : ℕ) : Int) by push_cast; rfl,
    show ((j : Int) + (k : Int)) = ((j + k : ℕ) : Int) by push_cast; rfl]
  simp only [pyStart_nat]
  rw [hl, show min (i + k) (s.length + k) = min i s.length + k by omega,
    show min (j + k) (s.length + k) = min j s.length + k by omega]
  have e := Late.drop h (min i s.length)
  rw [List.drop_take, List.drop_take, e]
  congr 1
  omega

theorem Late.seed {seed : Seed} {s s' : List V} (h : s'.drop k = s) (hl : s'.length = s.length + k) {P2 pval : ℕ} (h1 : 1 ≤ P2)
    (hv : pval ≤ P2) :
    seedVal seed s' (((P2 + k : ℕ) : Int) - pval) (((P2 + k : ℕ) : Int) - 1) ((P2 + k : ℕ) : Int)
      = seedVal seed s ((P2 : Int) - pval) ((P2 : Int) - 1) P2 := by
  have e1 : (((P2 + k : ℕ) : Int) - pval) = ((P2 - pval : ℕ) : Int) + k := by omega
  have e2 : (((P2 + k : ℕ) : Int) - 1) = ((P2 : Int) - 1) + k := by omega
  have e3 : ((P2 : Int) - pval) = ((P2 - pval : ℕ) : Int) := by omega
  have e4 : ((P2 + k : ℕ) : Int) = ((P2 : ℕ) : Int) + k := by omega
  unfold seedVal
  cases seed with
  | avg => simp only; rw [e1, e3, e4, Late.pySlice h hl]
  | sum => simp only; rw [e1, e3, e4, Late.pySlice h hl]
  | last => simp only; rw [e2, Late.pyGet h (by omega)]
  | none => rfl
  | zero => rfl
  | zfill => rfl

theorem Late.ewm {c : EwmCfg} {op : List V → Except Err (List V)} {a a' : Line V} (hf : EwmFits c a.minperiod)
    (h : Late k a a') : RE (Late k) (match ewmNew c a with | .error e => .error e | .ok o => ewmCall c a o op)
      (match ewmNew c a' with | .error e => .error e | .ok o => ewmCall c a' o op) := by
  intro r hr
  obtain ⟨P2, hp, h1, hv, hq, hq1⟩ := hf.p2
  have hal := hf.alphaP
  have hpv := hf.pval
  obtain ⟨pv, hpv'⟩ : ∃ pv : ℕ, c.pval = pv := ⟨c.pval.toNat, by omega⟩
  have hp' : c.p2 a'.minperiod = ((P2 + k : ℕ) : Int) := by
    have : c.p2 a'.minperiod = c.p2 a.minperiod + k := by
      unfold EwmCfg.p2
      simp only [h.mp]
      omega
    rw [this, hp]; push_cast; rfl
  have hmp : max (a'.minperiod + (c.pval - c.pearly - 1)) c.alphaP
      = max (a.minperiod + (c.pval - c.pearly - 1)) c.alphaP + k := by rw [h.mp, hal]; omega
  rcases ewm_cases hp h1 hr with ⟨hn, t, ht, hl, e⟩ | ⟨hn, hs, ht, e⟩
  · have hd : a'.series.drop (P2 + k) = a.series.drop P2 := Late.drop h.ser P2
    have hsd := Late.seed (seed := c.seed) h.ser h.len (P2 := P2) (pval := pv) h1 (by omega)
    rw [← hpv'] at hsd
    refine ⟨_, ewm_long hp' (by omega) (by rw [h.len]; omega) (t := t) ?_ ?_, ?_⟩
    · rw [hsd, hd]; exact ht
    · rw [hl, h.len]; omega
    · rw [e, hmp, show (((P2 + k : ℕ) : Int) - 1) = ((P2 : Int) - 1) + k by omega]
      exact h.clone _ (by omega) (by omega) _
  · refine ⟨_, ewm_none hp' (by omega) (by rw [h.len]; omega) hs ht, ?_⟩
    rw [e, hmp]
    unfold Line.clone
    rw [if_neg (by omega), if_neg (by omega)]
    refine ⟨by simp only; omega, rfl, ?_, by simp [h.len]⟩
    simp only [List.drop_replicate, h.len, Nat.add_sub_cancel]

/-- the other direction -/
theorem Late.ewm' {c : EwmCfg} {op : List V → Except Err (List V)} {a a' : Line V} (hf : EwmFits c a.minperiod)
    (h : Late k a a') : RE (fun x y => Late k y x) (match ewmNew c a' with | .error e => .error e | .ok o => ewmCall c a' o op)
      (match ewmNew c a with | .error e => .error e | .ok o => ewmCall c a o op) := by
  intro r hr
  obtain ⟨P2, hp, h1, hv, hq, hq1⟩ := hf.p2
  have hal := hf.alphaP
  have hpv := hf.pval
  obtain ⟨pv, hpv'⟩ : ∃ pv : ℕ, c.pval = pv := ⟨c.pval.toNat, by omega⟩
  have hp' : c.p2 a'.minperiod = ((P2 + k : ℕ) : Int) := by
    have : c.p2 a'.minperiod = c.p2 a.minperiod + k := by
      unfold EwmCfg.p2
      simp only [h.mp]
      omega
    rw [this, hp]; push_cast; rfl
  have hmp : max (a'.minperiod + (c.pval - c.pearly - 1)) c.alphaP
      = max (a.minperiod + (c.pval - c.pearly - 1)) c.alphaP + k := by rw [h.mp, hal]; omega
  rcases ewm_cases hp' (by omega) hr with ⟨hn, t, ht, hl, e⟩ | ⟨hn, hs, ht, e⟩
  · have hd : a'.series.drop (P2 + k) = a.series.drop P2 := Late.drop h.ser P2
    have hsd := Late.seed (seed := c.seed) h.ser h.len (P2 := P2) (pval := pv) h1 (by omega)
    rw [← hpv'] at hsd
    rw [h.len] at hn hl
    refine ⟨_, ewm_long hp (by omega) (by omega) (t := t) ?_ ?_, ?_⟩
    · rw [hsd, hd] at ht; exact ht
    · omega
    · rw [e, hmp, show (((P2 + k : ℕ) : Int) - 1) = ((P2 : Int) - 1) + k by omega]
      exact h.clone _ (by omega) (by omega) _
  · rw [h.len] at hn
    refine ⟨_, ewm_none hp (by omega) (by omega) hs ht, ?_⟩
    rw [e, hmp]
    unfold Line.clone
    rw [if_neg (by omega), if_neg (by omega)]
    refine ⟨by simp only; omega, rfl, ?_, by simp [h.len]⟩
    simp only [List.drop_replicate, h.len, Nat.add_sub_cancel]

theorem Late.ewma {adj : Bool} {p : ℕ} (hp : 1 ≤ p) {a a' : Line V} (h : Late k a a') :
    ∃ r r', Ind.ewmaG adj p a = .ok r ∧ Ind.ewmaG adj p a' = .ok r' ∧ Late k r r' := by
  have hq := h.pos
  refine ⟨_, _, rfl, rfl, ?_⟩
  rw [h.mp, show a.minperiod + (k : Int) - 1 = (a.minperiod - 1) + k by omega, h.pyFrom (by omega),
    show max (a.minperiod + (k : Int) + p - 1) 1 = max (a.minperiod + p - 1) 1 + k by omega]
  exact h.clone _ (by omega) (by omega) _

theorem Late.sar {f : List (V × V) → Except Err (List V)} {a a' b b' : Line V} (h : Late k a a') (g : Late k b b') :
    (∃ e, Ind.applySar f a b = .error e ∧ Ind.applySar f a' b' = .error e) ∨
    ∃ r r', Ind.applySar f a b = .ok r ∧ Ind.applySar f a' b' = .ok r' ∧ Late k r r' := by
  have hq := h.pos
  have e : max a'.minperiod b'.minperiod = max a.minperiod b.minperiod + k := by rw [h.mp, g.mp]; omega
  unfold Ind.applySar
  simp only [e]
  rw [show max a.minperiod b.minperiod + (k : Int) - 1 = (max a.minperiod b.minperiod - 1) + k by omega,
    h.pyFrom (by omega), g.pyFrom (by omega)]
  cases f (List.zip (Bta.pyFrom a.series (max a.minperiod b.minperiod - 1))
    (Bta.pyFrom b.series (max a.minperiod b.minperiod - 1))) with
  | error e => exact Or.inl ⟨e, rfl, rfl⟩
  | ok r =>
    right
    refine ⟨_, _, rfl, rfl, ?_⟩
    exact Late.per (h.clone _ (by omega) (by omega) _) 1

end

/-- bars in front which are not delivered are put before the result -/
def lateRel (V : Type) [PyFloat V] (k : ℕ) : LRel V where
  rv := Late k
  rb := Late k
  acc := True
  plain := True
  early := False
  anyLoop := True
  pos := fun h => h.pos
  pos' := fun h => by have := h.pos; have := h.mp; omega
  bin := fun h g => h.zip g _
  binS := fun h => h.scal
  cmp := fun h g => h.zip g _
  cmpS := fun h => h.scal
  logic := fun h g => h.zip g _
  binB := fun h g => h.zip g _
  binBS := fun h => h.scal
  binUp := fun h g => h.zip (g.up (j := 1) (by omega)) _
  map := fun h => h.std0 _
  map2 := fun h g => h.zip g _
  mask := fun h g => (h.per _).zip g _
  shift := fun h => h.std _
  nothing := fun h => h.nothing
  diff := fun h => h.std _
  rolling := fun hw h => h.roll hw _
  rolling2 := fun hw _ h g => h.roll2 g hw _
  cum := fun _ _ h => h.std0 _
  pct := fun _ h => h.std _
  back := fun _ h2 _ h => h.back h2 _
  fill := fun _ h => h.fill _ _
  loop := fun _ _ h => (h.per _).app _
  loopAny := fun _ _ h => (h.per _).app _
  loopAny2 := fun _ _ h g => (h.per _).zip g _
  tails := fun _ h => (h.per _).tails.symm
  ewm := fun _ hf _ _ h => h.ewm hf
  dyn := fun h => h.elim
  unseeded := fun _ hp h => by
    obtain ⟨r, r', h1, h2, h3⟩ := h.ewma hp
    intro q hq
    rw [h1] at hq
    injection hq with hq
    exact ⟨r', h2, hq ▸ h3⟩
  sar := fun _ _ h g => by
    rename_i f _ _ _ _ _ _
    rcases Late.sar (f := f) h g with ⟨e, h1, h2⟩ | ⟨r, r', h1, h2, h3⟩
    · rw [h1]; exact RE.error
    · intro q hq
      rw [h1] at hq
      injection hq with hq
      exact ⟨r', h2, hq ▸ h3⟩
  absIdx := fun h => h.elim

/-- the same, from the line with more bars to the one without them -/
def lateRel' (V : Type) [PyFloat V] (k : ℕ) : LRel V where
  rv := fun a a' => Late k a' a
  rb := fun a a' => Late k a' a
  acc := True
  plain := True
  early := False
  anyLoop := True
  pos := fun h => by have := h.pos; have := h.mp; omega
  pos' := fun h => h.pos
  bin := fun h g => h.zip g _
  binS := fun h => h.scal
  cmp := fun h g => h.zip g _
  cmpS := fun h => h.scal
  logic := fun h g => h.zip g _
  binB := fun h g => h.zip g _
  binBS := fun h => h.scal
  binUp := fun h g => h.zip (g.up (j := 1) (by omega)) _
  map := fun h => h.std0 _
  map2 := fun h g => h.zip g _
  mask := fun h g => (h.per _).zip g _
  shift := fun h => h.std _
  nothing := fun h => h.nothing
  diff := fun h => h.std _
  rolling := fun hw h => h.roll hw _
  rolling2 := fun hw _ h g => h.roll2 g hw _
  cum := fun _ _ h => h.std0 _
  pct := fun _ h => h.std _
  back := fun _ _ h2 h => h.back h2 _
  fill := fun _ h => h.fill _ _
  loop := fun _ _ h => (h.per _).app _
  loopAny := fun _ _ h => (h.per _).app _
  loopAny2 := fun _ _ h g => (h.per _).zip g _
  tails := fun _ h => (h.per _).tails
  ewm := fun _ _ hf _ h => h.ewm' hf
  dyn := fun h => h.elim
  unseeded := fun _ hp h => by
    obtain ⟨r, r', h1, h2, h3⟩ := h.ewma hp
    intro q hq
    rw [h2] at hq
    injection hq with hq
    exact ⟨r, h1, hq ▸ h3⟩
  sar := fun _ _ h g => by
    rename_i f _ _ _ _ _ _
    rcases Late.sar (f := f) h g with ⟨e, h1, h2⟩ | ⟨r, r', h1, h2, h3⟩
    · rw [h2]; exact RE.error
    · intro q hq
      rw [h2] at hq
      injection hq with hq
      exact ⟨r, h1, hq ▸ h3⟩
  absIdx := fun h => h.elim

end Bta
