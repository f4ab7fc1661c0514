import Verif.Lemmas.Rel

/-!
# Instances of `LRel`
-/

set_option linter.unusedSectionVars false
set_option linter.unusedVariables false

namespace Bta
open Line

variable {β γ δ V : Type} [PyFloat V]

theorem pyFill_getN {α : Type} (s : List α) {i j : ℕ} (hij : i ≤ j) (v : α) (k : ℕ) :
    (pyFill s (i : Int) (j : Int) v)[k]? = if i ≤ k ∧ k < j ∧ k < s.length then some v else s[k]? := by
  have e : ∀ m : ℕ, pyStart s.length (m : Int) = min m s.length := by intro m; simp [pyStart]
  unfold pyFill
  simp only [e]
  by_cases h1 : k < min i s.length
  · rw [List.getElem?_append_left (by simp; omega), List.getElem?_append_left (by simp; omega), List.getElem?_take,
      if_pos h1, if_neg (by omega)]
  · by_cases h2 : k < min j s.length
    · rw [List.getElem?_append_left (by simp; omega), List.getElem?_append_right (by simp; omega), List.getElem?_replicate,
        if_pos (by simp; omega), if_pos (by omega)]
    · rw [List.getElem?_append_right (by simp; omega), List.getElem?_drop, if_neg (by omega)]
      congr 1
      simp only [List.length_append, List.length_take, List.length_replicate]
      omega

theorem pyFill_lenN {α : Type} (s : List α) {i j : ℕ} (hij : i ≤ j) (v : α) :
    (pyFill s (i : Int) (j : Int) v).length = s.length := by
  have e : ∀ m : ℕ, pyStart s.length (m : Int) = min m s.length := by intro m; simp [pyStart]
  unfold pyFill
  simp only [e, List.length_append, List.length_take, List.length_replicate, List.length_drop]
  omega

theorem pyFill_prefix {α : Type} {s t : List α} (h : s <+: t) {i j : ℕ} (hij : i ≤ j) (v : α) :
    pyFill s (i : Int) (j : Int) v <+: pyFill t (i : Int) (j : Int) v := by
  have hl := h.length_le
  rw [prefix_iff_get] at h ⊢
  rw [pyFill_lenN _ hij, pyFill_lenN _ hij]
  refine ⟨hl, ?_⟩
  intro k hk
  rw [pyFill_getN _ hij, pyFill_getN _ hij, h.2 k hk]
  by_cases hc : i ≤ k ∧ k < j
  · rw [if_pos ⟨hc.1, hc.2, hk⟩, if_pos ⟨hc.1, hc.2, by omega⟩]
  · rw [if_neg (by tauto), if_neg (by tauto)]

/-! ## what an `_ewm` call gives -/

theorem ewmNew_none {c : EwmCfg} {a : Line V} {P2 : ℕ} (hp : c.p2 a.minperiod = P2) (h1 : 1 ≤ P2)
    (h2 : a.series.length < P2) (hs : c.seed = .none ∨ c.seed = .zfill) :
    ewmNew c a = .ok ⟨(P2 : Int) - 1, []⟩ := by
  have hlen : pyStart a.series.length (P2 : Int) - pyStart a.series.length ((P2 : Int) - 1) = 0 := by
    rw [pyStart_nat, pyStart_pred _ (by omega)]; omega
  unfold ewmNew
  simp only [hp]
  unfold ewmPrefix
  simp only [hlen]
  have hd : pyFrom a.series (P2 : Int) = [] := by
    unfold pyFrom; rw [pyStart_nat]; simp; omega
  rcases hs with h | h <;> simp [h, hd]

/-- the two ways in which `line._ewm(...).op()` gives a result -/
theorem ewm_cases {c : EwmCfg} {a r : Line V} {P2 : ℕ} {op : List V → Except Err (List V)} (hp : c.p2 a.minperiod = P2)
    (h1 : 1 ≤ P2) (h : (match ewmNew c a with | .error e => .error e | .ok o => ewmCall c a o op : Except Err (Line V)) = .ok r) :
    (P2 ≤ a.series.length ∧
      ∃ t, op (seedVal c.seed a.series ((P2 : Int) - c.pval) ((P2 : Int) - 1) P2 :: a.series.drop P2) = .ok t ∧
        t.length = a.series.length - (P2 - 1) ∧
        r = clone a (setFrom a.series.length nan ((P2 : Int) - 1) t)
          (max (a.minperiod + (c.pval - c.pearly - 1)) c.alphaP)) ∨
    (a.series.length < P2 ∧ (c.seed = .none ∨ c.seed = .zfill) ∧ op [] = .ok [] ∧
      r = clone a (List.replicate a.series.length nan) (max (a.minperiod + (c.pval - c.pearly - 1)) c.alphaP)) := by
  by_cases hn : P2 ≤ a.series.length
  · left
    refine ⟨hn, ?_⟩
    rw [ewmNew_ok hp h1 hn] at h
    simp only [ewmCall] at h
    split at h
    · cases h
    · rename_i t ht
      split at h
      · rename_i hl
        injection h with h
        refine ⟨t, ht, ?_, h.symm⟩
        rw [hl, pyStart_pred _ h1]; omega
      · cases h
  · right
    have hs : c.seed = .none ∨ c.seed = .zfill := by
      by_contra hc
      rw [ewmNew_short hp (by omega) (by revert hc; cases c.seed <;> simp)] at h
      cases h
    refine ⟨by omega, hs, ?_⟩
    rw [ewmNew_none hp h1 (by omega) hs] at h
    simp only [ewmCall] at h
    split at h
    · cases h
    · rename_i t ht
      split at h
      · rename_i hl
        have : t = [] := by
          rw [pyStart_pred _ h1] at hl
          exact List.eq_nil_of_length_eq_zero (by omega)
        subst this
        injection h with h
        refine ⟨ht, ?_⟩
        rw [← h]
        unfold setFrom
        rw [pyStart_pred _ h1, Nat.min_eq_right (by omega), List.append_nil]
      · cases h

theorem ewm_long {c : EwmCfg} {a : Line V} {P2 : ℕ} {op : List V → Except Err (List V)} (hp : c.p2 a.minperiod = P2)
    (h1 : 1 ≤ P2) (hn : P2 ≤ a.series.length) {t : List V}
    (ht : op (seedVal c.seed a.series ((P2 : Int) - c.pval) ((P2 : Int) - 1) P2 :: a.series.drop P2) = .ok t)
    (hl : t.length = a.series.length - (P2 - 1)) :
    (match ewmNew c a with | .error e => .error e | .ok o => ewmCall c a o op : Except Err (Line V)) = .ok
      (clone a (setFrom a.series.length nan ((P2 : Int) - 1) t) (max (a.minperiod + (c.pval - c.pearly - 1)) c.alphaP)) := by
  rw [ewmNew_ok hp h1 hn]
  simp only [ewmCall, ht]
  rw [if_pos]
  rw [hl, pyStart_pred _ h1]; omega

theorem ewm_none {c : EwmCfg} {a : Line V} {P2 : ℕ} {op : List V → Except Err (List V)} (hp : c.p2 a.minperiod = P2)
    (h1 : 1 ≤ P2) (hn : a.series.length < P2) (hs : c.seed = .none ∨ c.seed = .zfill) (ht : op [] = .ok []) :
    (match ewmNew c a with | .error e => .error e | .ok o => ewmCall c a o op : Except Err (Line V)) = .ok
      (clone a (List.replicate a.series.length nan) (max (a.minperiod + (c.pval - c.pearly - 1)) c.alphaP)) := by
  rw [ewmNew_none hp h1 hn hs]
  simp only [ewmCall, ht]
  rw [if_pos]
  · unfold setFrom
    rw [pyStart_pred _ h1, Nat.min_eq_right (by omega), List.append_nil]
  · rw [pyStart_pred _ h1]; simp; omega

theorem EwmFits.p2 {c : EwmCfg} {mp : Int} (h : EwmFits c mp) : ∃ P2 : ℕ, c.p2 mp = P2 ∧ 1 ≤ P2 ∧ c.pval ≤ P2 ∧
    mp + (c.pval - c.pearly - 1) ≤ P2 ∧ 1 ≤ mp + (c.pval - c.pearly - 1) := by
  obtain ⟨h1, h2, h3, h4, h5, h6⟩ := h
  have e : c.p2 mp = mp - 1 + (if c.poffset ≠ 0 then c.poffset else c.pval) - c.pearly := by
    unfold EwmCfg.p2
    simp only []
    rw [if_neg (c := c.pval ≠ 0 ∧ (if c.poffset ≠ 0 then c.poffset else c.pval) < c.alphaP)]
    rw [h2]
    split <;> omega
  refine ⟨(c.p2 mp).toNat, ?_, ?_, ?_, ?_, by omega⟩ <;> rw [e] <;> split <;> omega

theorem seedVal_prefix {seed : Seed} {s t : List V} (h : s <+: t) {P2 pval : ℕ} (h1 : 1 ≤ P2) (hv : pval ≤ P2)
    (hn : P2 ≤ s.length) :
    seedVal seed s ((P2 : Int) - pval) ((P2 : Int) - 1) P2 = seedVal seed t ((P2 : Int) - pval) ((P2 : Int) - 1) P2 := by
  unfold seedVal
  cases seed with
  | avg => simp only; rw [pySlice_prefix h (by omega) (by omega) (by omega)]
  | sum => simp only; rw [pySlice_prefix h (by omega) (by omega) (by omega)]
  | last =>
    simp only
    rw [pyGet_prefix h (by omega) (by omega)]
  | none => rfl
  | zero => rfl
  | zfill => rfl

theorem drop_prefix {α : Type} {s t : List α} (h : s <+: t) (k : ℕ) : s.drop k <+: t.drop k := by
  rw [prefix_iff_get] at h ⊢
  refine ⟨by simp; omega, ?_⟩
  intro i hi
  rw [List.length_drop] at hi
  rw [List.getElem?_drop, List.getElem?_drop, h.2 _ (by omega)]

theorem replicate_prefix {α : Type} {n n' : ℕ} (h : n ≤ n') (v : α) : List.replicate n v <+: List.replicate n' v := by
  rw [prefix_iff_get]
  refine ⟨by simp; omega, ?_⟩
  intro i hi
  simp only [List.length_replicate] at hi
  rw [List.getElem?_replicate, List.getElem?_replicate, if_pos hi, if_pos (by omega)]

/-- `_dynalpha` on as many values as alphas -/
def dynL (prev : V) : List (V × V) → List V
  | [] => []
  | (v, al) :: xs => (prev + al * (v - prev)) :: dynL (prev + al * (v - prev)) xs

theorem dynL_causal (prev : V) : CausalL (dynL prev) :=
  scan_prefix dynL (fun p x => (p + x.2 * (x.1 - p), p + x.2 * (x.1 - p))) (fun _ => rfl) (fun _ _ _ => rfl) prev

theorem dynGo_eq : ∀ (prev : V) (vals als : List V), vals.length = als.length →
    dynGo prev vals als = .ok (dynL prev (List.zip vals als))
  | _, [], [], _ => rfl
  | _, [], _ :: _, h => by simp at h
  | _, _ :: _, [], h => by simp at h
  | prev, v :: vals, al :: als, h => by
    simp only [dynGo, List.zip_cons_cons, dynL]
    rw [dynGo_eq _ vals als (by simpa using h)]

theorem dynGo_more : ∀ (prev : V) (vals als : List V), vals.length < als.length →
    dynGo prev vals als = .error .indexError
  | _, _, [], h => by simp at h
  | _, [], _ :: _, _ => rfl
  | prev, v :: vals, al :: als, h => by
    simp only [dynGo]
    rw [dynGo_more _ vals als (by simpa using h)]

theorem prepL_length (t : List V) : (prepL t).length = t.length := by simp [prepL]

theorem prepL_prefix {s t : List V} (h : s <+: t) : prepL s <+: prepL t := (CausalL.map _).pre _ _ h

/-- the function applied to the data of a dynamic `_ewm`, if the alphas are as many as the values after the first -/
theorem dynAlpha_eq {als t : List V} (h : t.length = als.length + 1) :
    ∃ x xs, prepL t = x :: xs ∧ dynAlpha als (prepL t) = .ok (nan :: dynL x (List.zip xs als)) := by
  cases hq : prepL t with
  | nil => have := prepL_length t; rw [hq] at this; simp at this; omega
  | cons x xs =>
    refine ⟨x, xs, rfl, ?_⟩
    have := prepL_length t
    rw [hq] at this
    simp only [List.length_cons] at this
    simp only [dynAlpha]
    rw [dynGo_eq _ _ _ (by omega)]

theorem dynAlpha_more {als t : List V} (h : t.length < als.length + 1) :
    dynAlpha als (prepL t) = .error .indexError := by
  cases hq : prepL t with
  | nil => rfl
  | cons x xs =>
    have := prepL_length t
    rw [hq] at this
    simp only [List.length_cons] at this
    simp only [dynAlpha]
    rw [dynGo_more _ _ _ (by omega)]

/-- where the first value of a dynamic `_ewm` is -/
theorem dyn_p2 {pval : ℕ} {seed : Seed} {A mp : Int} (hm : 1 ≤ mp) (h0 : pval = 0 → 2 ≤ mp ∧ A ≤ mp) (hA : (pval : Int) < A) :
    ∃ P2 : ℕ, EwmCfg.p2 { pval := pval, seed := seed, alphaP := A } mp = P2 ∧ 1 ≤ P2 ∧ pval ≤ P2 ∧ A - 1 ≤ P2 ∧
      (P2 = A - 1 → max (mp + (pval - 0 - 1)) A ≤ P2 + 1) := by
  have e : EwmCfg.p2 { pval := pval, seed := seed, alphaP := A } mp = if pval = 0 then mp - 1 else mp - 1 + (A - 1) := by
    unfold EwmCfg.p2
    simp only [ne_eq, not_true_eq_false, if_false]
    by_cases hp : pval = 0
    · simp [hp]
    · rw [if_pos ⟨by omega, hA⟩, if_neg hp]; omega
  refine ⟨(EwmCfg.p2 { pval := pval, seed := seed, alphaP := A } mp).toNat, ?_, ?_, ?_, ?_, ?_⟩ <;> rw [e] <;> split <;> omega

/-- the only way in which `line._ewm(alpha=alphaline)._mean()` gives a result -/
theorem dyn_cases {pval : ℕ} {seed : Seed} {al a r : Line V} {P2 : ℕ} (hlen : al.series.length = a.series.length)
    (hp : EwmCfg.p2 { pval := pval, seed := seed, alphaP := al.minperiod } a.minperiod = P2) (h1 : 1 ≤ P2)
    (hA1 : 1 ≤ al.minperiod) (hA : al.minperiod - 1 ≤ P2) (h : ewmDyn { pval := pval, seed := seed } al a = .ok r) :
    P2 ≤ a.series.length ∧ P2 = al.minperiod - 1 ∧
      ∃ x xs, prepL (seedVal seed a.series ((P2 : Int) - pval) ((P2 : Int) - 1) P2 :: a.series.drop P2) = x :: xs ∧
        r = clone a (setFrom a.series.length nan ((P2 : Int) - 1)
          (nan :: dynL x (List.zip xs (al.series.drop P2)))) (max (a.minperiod + (pval - 0 - 1)) al.minperiod) := by
  unfold ewmDyn at h
  simp only [] at h
  have hfrom : pyFrom al.series (al.minperiod - 1) = al.series.drop (min (al.minperiod - 1).toNat al.series.length) := by
    unfold pyFrom; rw [pyStart_of_pos hA1]
  rcases ewm_cases (c := { pval := pval, seed := seed, alphaP := al.minperiod }) hp h1 h with ⟨hn, t, ht, hl, hr⟩ | ⟨hn, hs, ht, hr⟩
  · refine ⟨hn, ?_⟩
    simp only [] at ht
    have hP : (P2 : Int) = al.minperiod - 1 := by
      by_contra hc
      rw [dynAlpha_more] at ht
      · cases ht
      · rw [hfrom]; simp only [List.length_cons, List.length_drop]; omega
    refine ⟨hP, ?_⟩
    have hd : pyFrom al.series (al.minperiod - 1) = al.series.drop P2 := by
      rw [hfrom]; congr 1; omega
    obtain ⟨x, xs, e1, e2⟩ := dynAlpha_eq (als := pyFrom al.series (al.minperiod - 1))
      (t := seedVal seed a.series ((P2 : Int) - pval) ((P2 : Int) - 1) P2 :: a.series.drop P2) (by
        rw [hd]; simp only [List.length_cons, List.length_drop]; omega)
    refine ⟨x, xs, e1, ?_⟩
    rw [e2] at ht
    injection ht with ht
    rw [hr, ← ht, hd]
  · simp only [prepL, List.map_nil, dynAlpha] at ht
    cases ht

theorem dyn_long {pval : ℕ} {seed : Seed} {al a : Line V} {P2 : ℕ} (hlen : al.series.length = a.series.length)
    (hp : EwmCfg.p2 { pval := pval, seed := seed, alphaP := al.minperiod } a.minperiod = P2) (h1 : 1 ≤ P2)
    (hA1 : 1 ≤ al.minperiod) (hA : P2 = al.minperiod - 1) (hn : P2 ≤ a.series.length) {x : V} {xs : List V}
    (hx : prepL (seedVal seed a.series ((P2 : Int) - pval) ((P2 : Int) - 1) P2 :: a.series.drop P2) = x :: xs) :
    ewmDyn { pval := pval, seed := seed } al a = .ok (clone a (setFrom a.series.length nan ((P2 : Int) - 1)
          (nan :: dynL x (List.zip xs (al.series.drop P2)))) (max (a.minperiod + (pval - 0 - 1)) al.minperiod)) := by
  unfold ewmDyn
  simp only []
  have hd : pyFrom al.series (al.minperiod - 1) = al.series.drop P2 := by
    unfold pyFrom; rw [pyStart_of_pos hA1]; congr 1; omega
  have hxl : xs.length = a.series.length - P2 := by
    have := congrArg List.length hx
    rw [prepL_length] at this
    simp only [List.length_cons, List.length_drop] at this
    omega
  refine ewm_long (c := { pval := pval, seed := seed, alphaP := al.minperiod }) hp h1 hn ?_ ?_
  · simp only []
    rw [hx, hd]
    simp only [dynAlpha]
    rw [dynGo_eq _ _ _ (by simp only [List.length_drop]; omega)]
  · simp only [List.length_cons, (dynL_causal _).len, List.length_zip, List.length_drop]
    omega

/-! ## extending the data -/

/-- `l` is what `l'` is on the first `n` of `n'` bars -/
structure Ext2 (n n' : ℕ) (l l' : Line β) : Prop where
  pref : Pref l l'
  len : l.series.length = n
  len' : l'.series.length = n'

section causal
variable {n n' : ℕ} {a a' b b' al al' : Line V}

theorem Ext2.zip {x x' : Line β} {y y' : Line γ} (h : Ext2 n n' x x') (g : Ext2 n n' y y') {F : β → γ → δ} {fill : δ} :
    Ext2 n n' (stdop2 (List.zipWith F) fill x y) (stdop2 (List.zipWith F) fill x' y') :=
  ⟨pref_stdop2 (CausalL2.zipWith F) h.pref g.pref (by rw [h.len, g.len]) (by rw [h.len', g.len']),
   by rw [stdop2_length (CausalL2.zipWith F) (by rw [h.len, g.len]), h.len],
   by rw [stdop2_length (CausalL2.zipWith F) (by rw [h.len', g.len']), h.len']⟩

theorem Ext2.scal {x x' : Line β} (h : Ext2 n n' x x') {F : β → γ → δ} {fill : δ} {c : γ} :
    Ext2 n n' (binopS F fill x c) (binopS F fill x' c) :=
  ⟨pref_binopS h.pref, by rw [binopS_length, h.len], by rw [binopS_length, h.len']⟩

theorem Ext2.std {x x' : Line β} (h : Ext2 n n' x x') {g : List β → List γ} (hg : CausalL g) {fill : γ} {inc : ℕ} :
    Ext2 n n' (stdop g fill inc x) (stdop g fill inc x') :=
  ⟨pref_stdop hg (by omega) h.pref, by rw [stdop_length hg.len, h.len], by rw [stdop_length hg.len, h.len']⟩

theorem Ext2.app {x x' : Line β} (h : Ext2 n n' x x') {g : List β → List γ} (hg : CausalL g) {fill : γ} :
    Ext2 n n' (apply g fill x) (apply g fill x') :=
  ⟨pref_apply hg h.pref, by rw [apply_length hg.len, h.len], by rw [apply_length hg.len, h.len']⟩

theorem Ext2.up {x x' : Line β} (h : Ext2 n n' x x') (k : ℕ) :
    Ext2 n n' ⟨x.series, x.minperiod + k⟩ ⟨x'.series, x'.minperiod + k⟩ :=
  ⟨⟨by have := h.pref.pos; simp only; omega, by have := h.pref.mp; simp only; omega, h.pref.ser⟩, h.len, h.len'⟩

theorem period_none (k : Int) (x : Line V) : period k none x = ⟨x.series, x.minperiod + k⟩ := by
  unfold period
  by_cases h : k = 0
  · subst h; simp
  · simp [h]

theorem Ext2.period (h : Ext2 n n' a a') (k : ℕ) : Ext2 n n' (Line.period k none a) (Line.period k none a') := by
  rw [period_none, period_none]; exact h.up k

theorem Ext2.le (h : Ext2 n n' a a') : n ≤ n' := by
  have := h.pref.ser.length_le
  rw [h.len, h.len'] at this; exact this

theorem Ext2.fill (h : Ext2 n n' a a') {k : ℕ} {v : V} :
    Ext2 n n' (Line.period k (some v) a) (Line.period k (some v) a') := by
  have hp := h.pref.pos
  have hm := h.pref.mp
  obtain ⟨m, hmm⟩ : ∃ m : ℕ, a.minperiod - 1 = m := ⟨(a.minperiod - 1).toNat, by omega⟩
  unfold Line.period
  by_cases hk : (k : Int) = 0
  · rw [if_pos hk, if_pos hk]; exact h
  · rw [if_neg hk, if_neg hk]
    simp only [← hm, hmm]
    rw [if_neg (by omega), if_neg (by omega)]
    rw [show ((m : Int) + (k : Int)) = ((m + k : ℕ) : Int) by push_cast; rfl]
    exact ⟨⟨by simp only; omega, rfl, pyFill_prefix h.pref.ser (by omega) v⟩,
      by simp only; rw [pyFill_lenN _ (by omega), h.len], by simp only; rw [pyFill_lenN _ (by omega), h.len']⟩

theorem Ext2.back (h : Ext2 n n' a a') (h2 : 2 ≤ a.minperiod) {v : V} :
    Ext2 n n' (Line.period (-1) (some v) a) (Line.period (-1) (some v) a') := by
  have hm := h.pref.mp
  obtain ⟨m, hmm⟩ : ∃ m : ℕ, a.minperiod = ((m + 2 : ℕ) : Int) := ⟨(a.minperiod - 2).toNat, by omega⟩
  unfold Line.period
  rw [if_neg (by omega), if_neg (by omega)]
  simp only [← hm, hmm]
  rw [if_pos (by omega), if_pos (by omega)]
  rw [show (((m + 2 : ℕ) : Int) - 1 + -1) = (m : Int) by omega, show (((m + 2 : ℕ) : Int) - 1) = ((m + 1 : ℕ) : Int) by omega]
  exact ⟨⟨by simp only; omega, rfl, pyFill_prefix h.pref.ser (by omega) v⟩,
      by simp only; rw [pyFill_lenN _ (by omega), h.len], by simp only; rw [pyFill_lenN _ (by omega), h.len']⟩

theorem setFrom_len1 {n P2 : ℕ} (h1 : 1 ≤ P2) {r : List V} (h : r.length = n - (P2 - 1)) :
    (setFrom n nan ((P2 : Int) - 1) r).length = n := by
  refine setFrom_len ?_
  rw [h, pyStart_pred _ h1]; omega

theorem Ext2.ewm {c : EwmCfg} {op : List V → Except Err (List V)} (hf : EwmFits c a.minperiod) (ho : EwmFn op)
    (h : Ext2 n n' a a') : RE (Ext2 n n') (match ewmNew c a with | .error e => .error e | .ok o => ewmCall c a o op)
      (match ewmNew c a' with | .error e => .error e | .ok o => ewmCall c a' o op) := by
  intro r hr
  obtain ⟨P2, hp, h1, hv, hmp, hm1⟩ := hf.p2
  obtain ⟨pv, hpv⟩ : ∃ pv : ℕ, c.pval = pv := ⟨c.pval.toNat, by have := hf.pval; omega⟩
  have hp' : c.p2 a'.minperiod = P2 := by rw [← h.pref.mp]; exact hp
  obtain ⟨g, hg, hop⟩ := ho.causal
  have hnn := h.le
  have hal := hf.alphaP
  rcases ewm_cases hp h1 hr with ⟨hn, t, ht, hl, rfl⟩ | ⟨hn, hs, ht, rfl⟩
  · rw [h.len] at hn hl
    have hsd := seedVal_prefix (seed := c.seed) h.pref.ser (P2 := P2) (pval := pv) h1 (by omega) (by rw [h.len]; exact hn)
    rw [← hpv] at hsd
    rw [hop _ (by simp)] at ht
    injection ht with ht
    have hlong := ewm_long (c := c) (a := a') (op := op) hp' h1 (by rw [h.len']; omega) (hop _ (by simp))
      (by rw [hg.len, List.length_cons, List.length_drop, h.len']; omega)
    refine ⟨_, hlong, ?_, ?_, ?_⟩
    · rw [← h.pref.mp]
      refine pref_clone (by omega) ?_
      rw [h.len, h.len', ← hsd, ← ht]
      refine setFrom_prefix hnn (by omega) (hg.pre _ _ ?_) ?_
      · exact (List.prefix_cons_inj _).mpr (drop_prefix h.pref.ser _)
      · rw [hg.len, pyStart_pred _ h1, List.length_cons, List.length_drop, h.len]; omega
    · simp only [clone]; rw [h.len]; exact setFrom_len1 h1 hl
    · simp only [clone]; rw [h.len']; refine setFrom_len1 h1 ?_
      rw [hg.len, List.length_cons, List.length_drop, h.len']; omega
  · rw [h.len] at hn
    by_cases hn' : P2 ≤ n'
    · have hlong := ewm_long (c := c) (a := a') (op := op) hp' h1 (by rw [h.len']; omega) (hop _ (by simp))
        (by rw [hg.len, List.length_cons, List.length_drop, h.len']; omega)
      refine ⟨_, hlong, ?_, ?_, ?_⟩
      · rw [← h.pref.mp]
        refine pref_clone (by omega) ?_
        rw [h.len, h.len']
        unfold setFrom
        rw [pyStart_pred _ h1]
        exact (replicate_prefix (by omega) nan).trans (List.prefix_append _ _)
      · simp only [clone]; rw [h.len]; simp
      · simp only [clone]; rw [h.len']; refine setFrom_len1 h1 ?_
        rw [hg.len, List.length_cons, List.length_drop, h.len']; omega
    · refine ⟨_, ewm_none hp' h1 (by rw [h.len']; omega) hs ht, ?_, ?_, ?_⟩
      · rw [← h.pref.mp]
        refine pref_clone (by omega) ?_
        rw [h.len, h.len']
        exact replicate_prefix hnn nan
      · simp only [clone]; rw [h.len]; simp
      · simp only [clone]; rw [h.len']; simp

theorem zip_prefix {α β : Type} {s s' : List α} {t t' : List β} (h : s <+: s') (g : t <+: t') (e : s.length = t.length)
    (e' : s'.length = t'.length) : List.zip s t <+: List.zip s' t' :=
  (CausalL2.zipWith Prod.mk).pre _ _ _ _ h g e e'

theorem Ext2.dyn {pval : ℕ} {seed : Seed} (h0 : pval = 0 → 2 ≤ a.minperiod ∧ al.minperiod ≤ a.minperiod)
    (hA : (pval : Int) < al.minperiod) (hal : Ext2 n n' al al') (h : Ext2 n n' a a') :
    RE (Ext2 n n') (ewmDyn { pval := pval, seed := seed } al a) (ewmDyn { pval := pval, seed := seed } al' a') := by
  intro r hr
  have hA1 := hal.pref.pos
  obtain ⟨P2, hp, h1, hv, hAP, hmp⟩ := dyn_p2 (seed := seed) h.pref.pos h0 hA
  obtain ⟨hn, hP, x, xs, hx, rfl⟩ := dyn_cases (by rw [hal.len, h.len]) hp h1 hA1 hAP hr
  rw [h.len] at hn
  have hnn := h.le
  have hp' := hp
  rw [h.pref.mp, hal.pref.mp] at hp'
  simp only [prepL, List.map_cons] at hx
  injection hx with hx0 hxs
  have hsd := seedVal_prefix (seed := seed) h.pref.ser h1 hv (by rw [h.len]; exact hn)
  have hlong := dyn_long (seed := seed) (al := al') (a := a') (pval := pval) (by rw [hal.len', h.len']) hp' h1
    (by rw [← hal.pref.mp]; exact hA1) (by rw [← hal.pref.mp]; exact hP) (by rw [h.len']; omega)
    (x := x) (xs := prepL (a'.series.drop P2)) (by
      rw [← hsd, ← hx0]; rfl)
  have hxl : xs.length = n - P2 := by rw [← hxs]; simp [h.len]
  refine ⟨_, hlong, ?_, ?_, ?_⟩
  · rw [← h.pref.mp, ← hal.pref.mp]
    refine pref_clone (by omega) ?_
    rw [h.len, h.len']
    refine setFrom_prefix hnn (by omega) ((List.prefix_cons_inj _).mpr ((dynL_causal x).pre _ _ (zip_prefix ?_ ?_ ?_ ?_))) ?_
    · rw [← hxs]; exact prepL_prefix (drop_prefix h.pref.ser _)
    · exact drop_prefix hal.pref.ser _
    · rw [hxl, List.length_drop, hal.len]
    · rw [prepL_length, List.length_drop, List.length_drop, h.len', hal.len']
    · rw [pyStart_pred _ h1, List.length_cons, (dynL_causal x).len, List.length_zip, hxl, List.length_drop, hal.len]; omega
  · simp only [clone]; rw [h.len]; refine setFrom_len1 h1 ?_
    rw [List.length_cons, (dynL_causal x).len, List.length_zip, hxl, List.length_drop, hal.len]; omega
  · simp only [clone]; rw [h.len']; refine setFrom_len1 h1 ?_
    rw [List.length_cons, (dynL_causal x).len, List.length_zip, prepL_length, List.length_drop, List.length_drop, hal.len', h.len']
    omega

theorem Ext2.sar {f : List (V × V) → Except Err (List V)} (hf : SarLike f) (h : Ext2 n n' a a') (g : Ext2 n n' b b') :
    RE (Ext2 n n') (Ind.applySar f a b) (Ind.applySar f a' b') := by
  intro r hr
  have hp := h.pref.pos
  unfold Ind.applySar at hr ⊢
  simp only [← h.pref.mp, ← g.pref.mp] at hr ⊢
  have hm1 : 1 ≤ max a.minperiod b.minperiod := by omega
  generalize max a.minperiod b.minperiod = M at *
  have hz : List.zip (pyFrom a.series (M - 1)) (pyFrom b.series (M - 1)) <+:
      List.zip (pyFrom a'.series (M - 1)) (pyFrom b'.series (M - 1)) :=
    zip_prefix (pyFrom_prefix h.pref.ser hm1) (pyFrom_prefix g.pref.ser hm1)
      (by rw [pyFrom_length, pyFrom_length, h.len, g.len]) (by rw [pyFrom_length, pyFrom_length, h.len', g.len'])
  have hl : (List.zip (pyFrom a.series (M - 1)) (pyFrom b.series (M - 1))).length = n - pyStart n (M - 1) := by
    rw [List.length_zip, pyFrom_length, pyFrom_length, h.len, g.len]; omega
  have hl' : (List.zip (pyFrom a'.series (M - 1)) (pyFrom b'.series (M - 1))).length = n' - pyStart n' (M - 1) := by
    rw [List.length_zip, pyFrom_length, pyFrom_length, h.len', g.len']; omega
  generalize List.zip (pyFrom a.series (M - 1)) (pyFrom b.series (M - 1)) = z at *
  generalize List.zip (pyFrom a'.series (M - 1)) (pyFrom b'.series (M - 1)) = z' at *
  obtain ⟨G, hG, hsc⟩ := hf.scan
  match z, z', hz with
  | [], _, _ => rw [hf.short _ (by simp)] at hr; cases hr
  | [_], _, _ => rw [hf.short _ (by simp)] at hr; cases hr
  | u :: v :: xs, [], hz => simp at hz
  | u :: v :: xs, [_], hz => have := hz.length_le; simp at this
  | u :: v :: xs, u' :: v' :: xs', hz =>
    obtain ⟨e1, hz⟩ := List.cons_prefix_cons.mp hz
    obtain ⟨e2, hz⟩ := List.cons_prefix_cons.mp hz
    rw [← e1, ← e2, List.length_cons, List.length_cons] at hl'
    rw [← e1, ← e2]
    rw [hsc] at hr ⊢
    simp only [Except.ok.injEq] at hr ⊢
    subst hr
    simp only [List.length_cons] at hl hl'
    refine ⟨_, rfl, ?_⟩
    refine Ext2.period (n := n) (n' := n') ?_ 1
    refine ⟨pref_clone hm1 ?_, ?_, ?_⟩
    · rw [h.len, h.len']
      refine setFrom_prefix h.le hm1 ((List.prefix_cons_inj _).mpr ((hG u v).pre _ _ ((List.prefix_cons_inj _).mpr hz))) ?_
      rw [List.length_cons, (hG u v).len, List.length_cons, hl]
    · simp only [clone]; rw [h.len]; refine setFrom_len ?_
      rw [List.length_cons, (hG u v).len, List.length_cons, hl]
    · simp only [clone]; rw [h.len']; refine setFrom_len ?_
      rw [List.length_cons, (hG u v).len, List.length_cons, hl']

theorem absIdxGo_len (p : ℕ) (arg : List V → ℕ) (xs : List V) : ∀ (m i maxi : ℕ), (Ind.absIdxGo p arg xs m i maxi).length = m := by
  intro m
  induction m with
  | zero => intro i maxi; rfl
  | succ m ih => intro i maxi; simp only [Ind.absIdxGo]; split <;> [skip; split] <;> simp [ih]

theorem absIdxGo_prefix (p : ℕ) (arg : List V → ℕ) {xs ys : List V} (h : xs <+: ys) :
    ∀ (m m' i maxi : ℕ), m ≤ m' → m + i ≤ xs.length →
      Ind.absIdxGo p arg xs m i maxi <+: Ind.absIdxGo p arg ys m' i maxi := by
  intro m
  induction m with
  | zero => intro m' i maxi _ _; exact List.nil_prefix
  | succ m ih =>
    intro m' i maxi hm hi
    obtain ⟨k, rfl⟩ : ∃ k, m' = k + 1 := ⟨m' - 1, by omega⟩
    obtain ⟨t, rfl⟩ := h
    have e : window p i (xs ++ t) = window p i xs := by
      unfold window
      rw [List.take_append_of_le_length (by omega)]
    simp only [Ind.absIdxGo, e]
    split <;> [skip; split] <;> exact (List.prefix_cons_inj _).mpr (ih k _ _ (by omega) (by omega))

theorem Ext2.absIdx {p : ℕ} {arg : List V → ℕ} (h : Ext2 n n' a a') :
    Ext2 n n' (Ind.absIndex p arg a) (Ind.absIndex p arg a') := by
  have hp := h.pref.pos
  unfold Ind.absIndex
  simp only [← h.pref.mp]
  have hpf := pyFrom_prefix h.pref.ser hp
  refine ⟨⟨by simp [ofSeries], rfl, ?_⟩, ?_, ?_⟩
  · refine (CausalL.map _).pre _ _ ?_
    rw [h.len, h.len']
    refine setFrom_prefix h.le hp (absIdxGo_prefix p arg hpf _ _ _ _ hpf.length_le (by omega)) ?_
    rw [absIdxGo_len, pyFrom_length, h.len]
  · simp only [ofSeries, List.length_map]; rw [setFrom_len, h.len]; rw [absIdxGo_len, pyFrom_length]
  · simp only [ofSeries, List.length_map]; rw [setFrom_len, h.len']; rw [absIdxGo_len, pyFrom_length]

/-- extending the data -/
def causalRel (V : Type) [PyFloat V] (n n' : ℕ) : LRel V where
  rv := Ext2 n n'
  rb := Ext2 n n'
  acc := True
  plain := True
  early := True
  anyLoop := False
  pos := fun h => h.pref.pos
  pos' := fun h => by have := h.pref.pos; have := h.pref.mp; omega
  bin := fun h g => h.zip g
  binS := fun h => h.scal
  cmp := fun h g => h.zip g
  cmpS := fun h => h.scal
  logic := fun h g => h.zip g
  binB := fun h g => h.zip g
  binBS := fun h => h.scal
  binUp := fun h g => h.zip (g.up 1)
  map := fun h => h.std (inc := 0) (CausalL.map _)
  map2 := fun h g => h.zip g
  mask := fun h g => (h.period _).zip g
  shift := fun h => h.std (CausalL.shift _)
  nothing := by
    intro a a' h
    have hp := h.pref.pos
    refine ⟨⟨?_, ?_, ?_⟩, ?_, ?_⟩
    · simp only [clone]; simpa using hp
    · simp only [clone]; simpa using h.pref.mp
    · simp only [clone]; rw [h.len, h.len']; exact replicate_prefix h.le nan
    · simp [clone, h.len]
    · simp [clone, h.len']
  diff := fun h => h.std (CausalL.diff _)
  rolling := fun hw h => ⟨pref_rolling hw h.pref, by rw [rolling_length, h.len], by rw [rolling_length, h.len']⟩
  rolling2 := fun hw _ h g => ⟨pref_rolling2 hw h.pref g.pref (by rw [h.len, g.len]) (by rw [h.len', g.len']),
    by rw [rolling2_length (by rw [h.len, g.len]), h.len], by rw [rolling2_length (by rw [h.len', g.len']), h.len']⟩
  cum := fun _ hg h => h.std (inc := 0) hg
  pct := fun _ h => h.std (CausalL.pctChange _)
  back := fun _ h2 _ h => h.back h2
  fill := fun _ h => h.fill
  loop := fun _ hg h => (h.period _).app hg
  loopAny := fun h => h.elim
  loopAny2 := fun h => h.elim
  tails := fun h => h.elim
  ewm := fun _ hf _ ho h => h.ewm hf ho
  dyn := fun _ h0 hA hal h => Ext2.dyn h0 hA hal h
  unseeded := by
    intro adj p a a' _ hp h
    have h1 := h.pref.pos
    unfold Ind.ewmaG
    simp only [← h.pref.mp]
    refine RE.ok ⟨pref_clone (by omega) ?_, ?_, ?_⟩
    · rw [h.len, h.len']
      refine setFrom_prefix h.le h1 ((CausalL.ewmMean _ _).pre _ _ (pyFrom_prefix h.pref.ser h1)) ?_
      rw [(CausalL.ewmMean _ _).len, pyFrom_length, h.len]
    · simp only [clone]; rw [setFrom_len, h.len]; rw [(CausalL.ewmMean _ _).len, pyFrom_length]
    · simp only [clone]; rw [setFrom_len, h.len']; rw [(CausalL.ewmMean _ _).len, pyFrom_length]
  sar := fun _ hf h g => Ext2.sar hf h g
  absIdx := fun _ h => h.absIdx

end causal

/-! ## nothing before the minimum period -/

/-- `n` bars, minimum period at least 1, NaN before it -/
structure Warm (n : ℕ) (l : Line V) : Prop where
  pos : 1 ≤ l.minperiod
  len : l.series.length = n
  pre : ∀ i : ℕ, (i : Int) + 1 < l.minperiod → i < n → l.series[i]? = some nan

/-- the same for yes/no lines (which hold `True` there) -/
structure WarmB (n : ℕ) (l : Line Bool) : Prop where
  pos : 1 ≤ l.minperiod
  len : l.series.length = n

section warm
variable {n : ℕ} {a b al : Line V} {x y : Line Bool}

theorem Warm.set {s : Line β} {r : List V} {M m : Int} (hM : 1 ≤ M) (hm : 1 ≤ m) (hl : r.length = n - pyStart n (M - 1))
    (hr : ∀ j : ℕ, (j : Int) + M < m → j < r.length → r[j]? = some nan) : Warm n (clone s (setFrom n nan (M - 1) r) m) := by
  refine ⟨by simp only [clone]; rw [if_neg (by omega)]; exact hm, by simp only [clone]; exact setFrom_len hl, ?_⟩
  intro i hi hn
  simp only [clone] at hi ⊢
  rw [if_neg (by omega)] at hi
  unfold setFrom
  rw [pyStart_of_pos hM] at hl ⊢
  by_cases h : i < min (M - 1).toNat n
  · rw [List.getElem?_append_left (by simpa using h), List.getElem?_replicate, if_pos h]
  · rw [List.getElem?_append_right (by simp; omega)]
    refine hr _ ?_ ?_ <;> simp only [List.length_replicate] <;> omega

theorem Warm.set0 {s : Line β} {r : List V} {M : Int} (hM : 1 ≤ M) (hl : r.length = n - pyStart n (M - 1)) :
    Warm n (clone s (setFrom n nan (M - 1) r) M) := Warm.set hM hM hl (by intro j h; omega)

theorem Warm.zipWith {s : Line β} {t : Line γ} {F : β → γ → V} (h1 : 1 ≤ s.minperiod) (hs : s.series.length = n)
    (ht : t.series.length = n) : Warm n (stdop2 (List.zipWith F) nan s t) := by
  unfold stdop2
  simp only [hs]
  refine Warm.set0 (by omega) ?_
  rw [List.length_zipWith, pyFrom_length, pyFrom_length, hs, ht]; omega

theorem Warm.scal {s : Line β} {F : β → γ → V} {c : γ} (h1 : 1 ≤ s.minperiod) (hs : s.series.length = n) :
    Warm n (binopS F nan s c) := by
  unfold binopS
  simp only [hs]
  refine Warm.set0 (by omega) ?_
  rw [List.length_map, pyFrom_length, hs]

theorem WarmB.zipWith {s : Line β} {t : Line γ} {F : β → γ → Bool} (h1 : 1 ≤ s.minperiod) (hs : s.series.length = n)
    (ht : t.series.length = n) : WarmB n (stdop2 (List.zipWith F) true s t) := by
  unfold stdop2
  simp only [hs]
  refine ⟨by simp only [clone]; rw [if_neg (by omega)]; omega, ?_⟩
  simp only [clone]
  rw [setFrom_len]
  rw [List.length_zipWith, pyFrom_length, pyFrom_length, hs, ht]; omega

theorem WarmB.scal {s : Line β} {F : β → γ → Bool} {c : γ} (h1 : 1 ≤ s.minperiod) (hs : s.series.length = n) :
    WarmB n (binopS F true s c) := by
  unfold binopS
  simp only [hs]
  refine ⟨by simp only [clone]; rw [if_neg (by omega)]; omega, ?_⟩
  simp only [clone]
  rw [setFrom_len]
  rw [List.length_map, pyFrom_length, hs]

theorem Warm.std {s : Line β} {g : List β → List V} {inc : ℕ} (h1 : 1 ≤ s.minperiod) (hs : s.series.length = n)
    (hg : ∀ xs, (g xs).length = xs.length) (hi : ∀ xs j, j < inc → j < xs.length → (g xs)[j]? = some nan) :
    Warm n (stdop g nan inc s) := by
  unfold stdop
  simp only [hs]
  have h := Warm.set (n := n) (s := s) (r := g (pyFrom s.series (s.minperiod - 1))) (M := s.minperiod)
    (m := s.minperiod + inc) h1 (by omega) (by rw [hg, pyFrom_length, hs]) (by
      intro j hj hjl
      rw [hg] at hjl
      exact hi _ _ (by omega) hjl)
  refine ⟨by simp only [clone]; rw [if_neg (by omega)]; omega, h.len, ?_⟩
  intro i hi hn
  refine h.pre i ?_ hn
  simp only [clone] at hi ⊢
  rw [if_neg (by omega)] at hi ⊢
  exact hi

theorem Warm.app {s : Line β} {g : List β → List V} (h1 : 1 ≤ s.minperiod) (hs : s.series.length = n)
    (hg : ∀ xs, (g xs).length = xs.length) : Warm n (apply g nan s) := by
  unfold apply
  simp only [hs]
  exact Warm.set0 h1 (by rw [hg, pyFrom_length, hs])

theorem rollL_pre {w : ℕ} {agg : List β → V} (xs : List β) {j : ℕ} (h : j + 1 < w) (hj : j < xs.length) :
    (rollL w agg xs)[j]? = some nan := by
  simp only [rollL, List.getElem?_map, List.getElem?_range hj, Option.map_some]
  rw [if_pos h]

theorem Warm.roll {s : Line β} {w : ℕ} {agg : List β → V} (hw : 1 ≤ w) (h1 : 1 ≤ s.minperiod) (hs : s.series.length = n) :
    Warm n (Line.rolling w agg s) := by
  unfold Line.rolling
  simp only [hs]
  refine Warm.set h1 (by omega) (by rw [rollL_length, pyFrom_length, hs]) ?_
  intro j hj hjl
  rw [rollL_length] at hjl
  exact rollL_pre _ (by omega) hjl

theorem Warm.roll2 {w : ℕ} {agg : List (V × V) → V} (hw : 1 ≤ w) (h1 : 1 ≤ a.minperiod) (ha : a.series.length = n)
    (hb : b.series.length = n) : Warm n (Line.rolling2 w agg a b) := by
  unfold Line.rolling2
  simp only [ha]
  refine Warm.set h1 (by omega) (by rw [rollL_length, List.length_zip, pyFrom_length, pyFrom_length, ha, hb]; omega) ?_
  intro j hj hjl
  rw [rollL_length] at hjl
  exact rollL_pre _ (by omega) hjl

theorem Warm.fill (h : Warm n a) (k : ℕ) : Warm n (Line.period k (some nan) a) := by
  have hp := h.pos
  obtain ⟨m, hmm⟩ : ∃ m : ℕ, a.minperiod - 1 = m := ⟨(a.minperiod - 1).toNat, by omega⟩
  unfold Line.period
  by_cases hk : (k : Int) = 0
  · rw [if_pos hk]; exact h
  · rw [if_neg hk]
    simp only [hmm]
    rw [if_neg (by omega)]
    rw [show ((m : Int) + (k : Int)) = ((m + k : ℕ) : Int) by push_cast; rfl]
    refine ⟨by simp only; omega, by simp only; rw [pyFill_lenN _ (by omega), h.len], ?_⟩
    intro i hi hn
    simp only at hi ⊢
    rw [pyFill_getN _ (by omega)]
    split
    · rfl
    · rename_i hc
      rw [h.len] at hc
      exact h.pre i (by omega) hn

theorem Warm.back (h : Warm n a) (h2 : 2 ≤ a.minperiod) (v : V) : Warm n (Line.period (-1) (some v) a) := by
  obtain ⟨m, hmm⟩ : ∃ m : ℕ, a.minperiod = ((m + 2 : ℕ) : Int) := ⟨(a.minperiod - 2).toNat, by omega⟩
  unfold Line.period
  rw [if_neg (by omega)]
  simp only [hmm]
  rw [if_pos (by omega)]
  rw [show (((m + 2 : ℕ) : Int) - 1 + -1) = (m : Int) by omega, show (((m + 2 : ℕ) : Int) - 1) = ((m + 1 : ℕ) : Int) by omega]
  refine ⟨by simp only; omega, by simp only; rw [pyFill_lenN _ (by omega), h.len], ?_⟩
  intro i hi hn
  simp only at hi ⊢
  rw [pyFill_getN _ (by omega), if_neg (by omega)]
  exact h.pre i (by omega) hn

theorem Warm.ewm {c : EwmCfg} {op : List V → Except Err (List V)} {r : Line V} (hf : EwmFits c a.minperiod)
    (h : a.series.length = n)
    (hr : (match ewmNew c a with | .error e => .error e | .ok o => ewmCall c a o op : Except Err (Line V)) = .ok r) :
    Warm n r := by
  obtain ⟨P2, hp, h1, hv, hmp, hm1⟩ := hf.p2
  have hal := hf.alphaP
  rcases ewm_cases hp h1 hr with ⟨hn, t, ht, hl, rfl⟩ | ⟨hn, hs, ht, rfl⟩
  · rw [h] at hl ⊢
    refine Warm.set (by omega) (by omega) (by rw [hl, pyStart_pred _ h1]; omega) ?_
    intro j hj hjl
    omega
  · refine ⟨by simp only [clone]; rw [if_neg (by omega)]; omega, by simp [clone, h], ?_⟩
    intro i hi hn
    simp only [clone, h]
    rw [List.getElem?_replicate, if_pos hn]

theorem Warm.dyn {pval : ℕ} {seed : Seed} {r : Line V} (h0 : pval = 0 → 2 ≤ a.minperiod ∧ al.minperiod ≤ a.minperiod)
    (hA : (pval : Int) < al.minperiod) (hal : Warm n al) (h : Warm n a)
    (hr : ewmDyn { pval := pval, seed := seed } al a = .ok r) : Warm n r := by
  have hA1 := hal.pos
  obtain ⟨P2, hp, h1, hv, hAP, hmp⟩ := dyn_p2 (seed := seed) h.pos h0 hA
  obtain ⟨hn, hP, x, xs, hx, rfl⟩ := dyn_cases (by rw [hal.len, h.len]) hp h1 hA1 hAP hr
  have hm := hmp hP
  have hxl : xs.length = n - P2 := by
    have := congrArg List.length hx
    rw [prepL_length] at this
    simp only [List.length_cons, List.length_drop, h.len] at this
    omega
  rw [h.len] at hn ⊢
  refine Warm.set (by omega) (by omega) ?_ ?_
  · rw [pyStart_pred _ h1, List.length_cons, (dynL_causal x).len, List.length_zip, hxl, List.length_drop, hal.len]; omega
  · intro j hj hjl
    have : j = 0 := by omega
    subst this
    rfl

theorem Warm.sar {f : List (V × V) → Except Err (List V)} {r : Line V} (hf : SarLike f) (h : Warm n a) (g : Warm n b)
    (hr : Ind.applySar f a b = .ok r) : Warm n r := by
  have hp := h.pos
  unfold Ind.applySar at hr
  simp only [] at hr
  have hm1 : 1 ≤ max a.minperiod b.minperiod := by omega
  generalize max a.minperiod b.minperiod = M at *
  have hl : (List.zip (pyFrom a.series (M - 1)) (pyFrom b.series (M - 1))).length = n - pyStart n (M - 1) := by
    rw [List.length_zip, pyFrom_length, pyFrom_length, h.len, g.len]; omega
  generalize List.zip (pyFrom a.series (M - 1)) (pyFrom b.series (M - 1)) = z at *
  obtain ⟨G, hG, hsc⟩ := hf.scan
  match z with
  | [] => rw [hf.short _ (by simp)] at hr; cases hr
  | [_] => rw [hf.short _ (by simp)] at hr; cases hr
  | u :: v :: xs =>
    rw [hsc] at hr
    simp only [Except.ok.injEq] at hr
    subst hr
    rw [period_none]
    simp only [List.length_cons] at hl
    have hrl : (nan :: G u v (v :: xs)).length = n - pyStart n (M - 1) := by
      rw [List.length_cons, (hG u v).len, List.length_cons, hl]
    have := Warm.set (n := n) (s := a) (r := nan :: G u v (v :: xs)) (M := M) (m := M + 1) hm1 (by omega) hrl (by
      intro j hj hjl
      have : j = 0 := by omega
      subst this
      rfl)
    rw [h.len]
    simp only [clone] at this ⊢
    rw [if_neg (by omega)] at this ⊢
    exact this

theorem Warm.absIdx {p : ℕ} {arg : List V → ℕ} (h : Warm n a) : Warm n (Ind.absIndex p arg a) := by
  unfold Ind.absIndex
  refine ⟨by simp [ofSeries], ?_, ?_⟩
  · simp only [ofSeries, List.length_map]; rw [setFrom_len, h.len]; rw [absIdxGo_len, pyFrom_length]
  · intro i hi; simp only [ofSeries] at hi; omega

/-- nothing before the minimum period -/
def warmRel (V : Type) [PyFloat V] (n : ℕ) : LRel V where
  rv := fun l l' => l = l' ∧ Warm n l
  rb := fun l l' => l = l' ∧ WarmB n l
  acc := True
  plain := False
  early := True
  anyLoop := True
  pos := by rintro a _ ⟨rfl, h⟩; exact h.pos
  pos' := by rintro a _ ⟨rfl, h⟩; exact h.pos
  bin := by rintro f a _ b _ ⟨rfl, h⟩ ⟨rfl, g⟩; exact ⟨rfl, Warm.zipWith h.pos h.len g.len⟩
  binS := by rintro f c a _ ⟨rfl, h⟩; exact ⟨rfl, Warm.scal h.pos h.len⟩
  cmp := by rintro f a _ b _ ⟨rfl, h⟩ ⟨rfl, g⟩; exact ⟨rfl, WarmB.zipWith h.pos h.len g.len⟩
  cmpS := by rintro f c a _ ⟨rfl, h⟩; exact ⟨rfl, WarmB.scal h.pos h.len⟩
  logic := by rintro f a _ b _ ⟨rfl, h⟩ ⟨rfl, g⟩; exact ⟨rfl, WarmB.zipWith h.pos h.len g.len⟩
  binB := by rintro f a _ b _ ⟨rfl, h⟩ ⟨rfl, g⟩; exact ⟨rfl, Warm.zipWith h.pos h.len g.len⟩
  binBS := by rintro f c a _ ⟨rfl, h⟩; exact ⟨rfl, Warm.scal h.pos h.len⟩
  binUp := by rintro f a _ b _ ⟨rfl, h⟩ ⟨rfl, g⟩; exact ⟨rfl, Warm.zipWith h.pos h.len g.len⟩
  map := by
    rintro f a _ ⟨rfl, h⟩
    exact ⟨rfl, Warm.std (inc := 0) h.pos h.len (by simp) (by intro _ _ h; omega)⟩
  map2 := by rintro f a _ b _ ⟨rfl, h⟩ ⟨rfl, g⟩; exact ⟨rfl, Warm.zipWith h.pos h.len g.len⟩
  mask := by
    rintro f j a _ b _ ⟨rfl, h⟩ ⟨rfl, g⟩
    rw [period_none]
    exact ⟨rfl, Warm.zipWith (by have := h.pos; simp only; omega) h.len g.len⟩
  shift := by
    rintro k a _ ⟨rfl, h⟩
    refine ⟨rfl, Warm.std h.pos h.len (CausalL.shift k).len ?_⟩
    intro xs j hj hl
    unfold shiftL
    rw [if_pos (by omega), List.getElem?_append_left (by simp; omega), List.getElem?_replicate, if_pos (by simp; omega)]
  nothing := by
    rintro a _ ⟨rfl, h⟩
    refine ⟨rfl, ⟨by simpa [clone] using h.pos, by simp [clone, h.len], ?_⟩⟩
    intro i _ hn
    simp only [clone, h.len]
    rw [List.getElem?_replicate, if_pos hn]
  diff := by
    rintro k a _ ⟨rfl, h⟩
    refine ⟨rfl, Warm.std h.pos h.len (CausalL.diff k).len ?_⟩
    intro xs j hj hl
    unfold diffL
    rw [List.getElem?_append_left (by simp; omega), List.getElem?_replicate, if_pos (by omega)]
  rolling := by rintro w agg a _ hw ⟨rfl, h⟩; exact ⟨rfl, Warm.roll hw h.pos h.len⟩
  rolling2 := by rintro w agg a _ b _ hw _ ⟨rfl, h⟩ ⟨rfl, g⟩; exact ⟨rfl, Warm.roll2 hw h.pos h.len g.len⟩
  cum := by
    rintro g a _ _ hg ⟨rfl, h⟩
    exact ⟨rfl, Warm.std (inc := 0) h.pos h.len hg.len (by intro _ _ h; omega)⟩
  pct := by
    rintro k a _ _ ⟨rfl, h⟩
    refine ⟨rfl, Warm.std h.pos h.len (CausalL.pctChange k).len ?_⟩
    intro xs j hj hl
    unfold pctChangeL
    rw [List.getElem?_append_left (by simp; omega), List.getElem?_replicate, if_pos (by omega)]
  back := by rintro v a _ _ h2 _ ⟨rfl, h⟩; exact ⟨rfl, h.back h2 v⟩
  fill := by rintro k a _ _ ⟨rfl, h⟩; exact ⟨rfl, h.fill k⟩
  loop := by
    rintro g j a _ _ hg ⟨rfl, h⟩
    rw [period_none]
    exact ⟨rfl, Warm.app (by have := h.pos; simp only; omega) h.len hg.len⟩
  loopAny := by
    rintro g j a _ _ hg ⟨rfl, h⟩
    rw [period_none]
    exact ⟨rfl, Warm.app (by have := h.pos; simp only; omega) h.len hg⟩
  loopAny2 := by
    rintro g j a _ b _ _ hg ⟨rfl, h⟩ ⟨rfl, h'⟩
    rw [period_none]
    refine ⟨rfl, ?_⟩
    have := h.pos
    unfold apply2 stdop2
    simp only [h.len]
    refine Warm.set0 (by omega) ?_
    rw [hg, pyFrom_length, h.len]
  tails := by rintro j a _ _ ⟨rfl, _⟩; rfl
  ewm := by
    rintro c op a _ _ hf _ ho ⟨rfl, h⟩
    intro r hr
    exact ⟨r, hr, rfl, Warm.ewm hf h.len hr⟩
  dyn := by
    rintro pval seed al _ a _ _ h0 hA ⟨rfl, hal⟩ ⟨rfl, h⟩
    intro r hr
    exact ⟨r, hr, rfl, Warm.dyn h0 hA hal h hr⟩
  unseeded := by rintro adj p a _ h; exact h.elim
  sar := by
    rintro f a _ b _ _ hf ⟨rfl, h⟩ ⟨rfl, g⟩
    intro r hr
    exact ⟨r, hr, rfl, Warm.sar hf h g hr⟩
  absIdx := by rintro p arg a _ _ ⟨rfl, h⟩; exact ⟨rfl, h.absIdx⟩

end warm

/-! ## the number of bars -/

section bars
variable {n : ℕ}

theorem RE.self {P : Line V → Line V → Prop} {e : Except Err (Line V)} (h : RE P e e) : RE (fun l l' => l = l' ∧ P l l) e e := by
  intro r hr
  obtain ⟨r', h1, h2⟩ := h r hr
  rw [hr] at h1
  injection h1 with h1
  subst h1
  exact ⟨r, hr, rfl, h2⟩

/-- `n` bars and a minimum period, as far as it is the same for every calculation -/
def barsRel (V : Type) [PyFloat V] (n : ℕ) : LRel V where
  rv := fun l l' => l = l' ∧ (causalRel V n n).rv l l
  rb := fun l l' => l = l' ∧ (causalRel V n n).rb l l
  acc := True
  plain := True
  early := True
  anyLoop := True
  pos := by rintro a _ ⟨rfl, h⟩; exact (causalRel V n n).pos h
  pos' := by rintro a _ ⟨rfl, h⟩; exact (causalRel V n n).pos h
  bin := by rintro f a _ b _ ⟨rfl, h⟩ ⟨rfl, g⟩; exact ⟨rfl, (causalRel V n n).bin h g⟩
  binS := by rintro f c a _ ⟨rfl, h⟩; exact ⟨rfl, (causalRel V n n).binS h⟩
  cmp := by rintro f a _ b _ ⟨rfl, h⟩ ⟨rfl, g⟩; exact ⟨rfl, (causalRel V n n).cmp h g⟩
  cmpS := by rintro f c a _ ⟨rfl, h⟩; exact ⟨rfl, (causalRel V n n).cmpS h⟩
  logic := by rintro f a _ b _ ⟨rfl, h⟩ ⟨rfl, g⟩; exact ⟨rfl, (causalRel V n n).logic h g⟩
  binB := by rintro f a _ b _ ⟨rfl, h⟩ ⟨rfl, g⟩; exact ⟨rfl, (causalRel V n n).binB h g⟩
  binBS := by rintro f c a _ ⟨rfl, h⟩; exact ⟨rfl, (causalRel V n n).binBS h⟩
  binUp := by rintro f a _ b _ ⟨rfl, h⟩ ⟨rfl, g⟩; exact ⟨rfl, (causalRel V n n).binUp h g⟩
  map := by rintro f a _ ⟨rfl, h⟩; exact ⟨rfl, (causalRel V n n).map h⟩
  map2 := by rintro f a _ b _ ⟨rfl, h⟩ ⟨rfl, g⟩; exact ⟨rfl, (causalRel V n n).map2 h g⟩
  mask := by rintro f j a _ b _ ⟨rfl, h⟩ ⟨rfl, g⟩; exact ⟨rfl, (causalRel V n n).mask h g⟩
  shift := by rintro k a _ ⟨rfl, h⟩; exact ⟨rfl, (causalRel V n n).shift h⟩
  nothing := by rintro  a _ ⟨rfl, h⟩; exact ⟨rfl, (causalRel V n n).nothing h⟩
  diff := by rintro k a _ ⟨rfl, h⟩; exact ⟨rfl, (causalRel V n n).diff h⟩
  rolling := by rintro w agg a _ hw ⟨rfl, h⟩; exact ⟨rfl, (causalRel V n n).rolling hw h⟩
  rolling2 := by rintro w agg a _ b _ hw _ ⟨rfl, h⟩ ⟨rfl, g⟩; exact ⟨rfl, (causalRel V n n).rolling2 hw (.inl trivial) h g⟩
  cum := by rintro g a _ _ hg ⟨rfl, h⟩; exact ⟨rfl, (causalRel V n n).cum trivial hg h⟩
  pct := by rintro k a _ _ ⟨rfl, h⟩; exact ⟨rfl, (causalRel V n n).pct trivial h⟩
  back := by rintro v a _ _ h2 _ ⟨rfl, h⟩; exact ⟨rfl, (causalRel V n n).back trivial h2 h2 h⟩
  fill := by rintro k a _ _ ⟨rfl, h⟩; exact ⟨rfl, (causalRel V n n).fill trivial h⟩
  loop := by rintro g j a _ _ hg ⟨rfl, h⟩; exact ⟨rfl, (causalRel V n n).loop trivial hg h⟩
  loopAny := by
    rintro g j a _ _ hg ⟨rfl, h⟩
    have hp := ((causalRel V n n).pos h)
    have hw := Warm.app (n := n) (g := g) (s := period j none a) (by rw [period_none]; simp only; omega)
      (by rw [period_none]; exact h.len) hg
    exact ⟨rfl, ⟨hw.pos, rfl, List.prefix_rfl⟩, hw.len, hw.len⟩
  loopAny2 := by
    rintro g j a _ b _ _ hg ⟨rfl, h⟩ ⟨rfl, h'⟩
    have hp := ((causalRel V n n).pos h)
    have hw : Warm n (apply2 g nan (period j none a) b) := by
      rw [period_none]
      unfold apply2 stdop2
      have hl : a.series.length = n := h.len
      simp only [hl]
      refine Warm.set0 (by omega) ?_
      rw [hg, pyFrom_length, hl]
    exact ⟨rfl, ⟨hw.pos, rfl, List.prefix_rfl⟩, hw.len, hw.len⟩
  tails := by rintro j a _ _ ⟨rfl, _⟩; rfl
  ewm := by rintro c op a _ _ hf _ ho ⟨rfl, h⟩; exact RE.self ((causalRel V n n).ewm trivial hf hf ho h)
  dyn := by rintro pval seed al _ a _ _ h0 hA ⟨rfl, hal⟩ ⟨rfl, h⟩; exact RE.self ((causalRel V n n).dyn trivial h0 hA hal h)
  unseeded := by rintro adj p a _ _ hp ⟨rfl, h⟩; exact RE.self ((causalRel V n n).unseeded trivial hp h)
  sar := by rintro f a _ b _ _ hf ⟨rfl, h⟩ ⟨rfl, g⟩; exact RE.self ((causalRel V n n).sar trivial hf h g)
  absIdx := by rintro p arg a _ _ ⟨rfl, h⟩; exact ⟨rfl, (causalRel V n n).absIdx trivial h⟩

end bars

/-! ## leaving out older bars -/

/-- `l` on `k + n` bars and `l'` on the last `n` of them agree from the minimum period of `l'` on -/
def Later (k n : ℕ) (l l' : Line β) : Prop :=
  ∃ m G, RepW l (n + k) m G ∧ RepW l' n m (fun i => G (i + k))

section later
variable {k n : ℕ}

theorem Later.of {l l' : Line β} {m : ℕ} {G G' : ℕ → β} (h : RepW l (n + k) m G) (h' : RepW l' n m G')
    (e : ∀ i, m ≤ i + 1 → i < n → G' i = G (i + k)) : Later k n l l' := ⟨m, G, h, h'.congr rfl e⟩

theorem Later.zip {x x' : Line β} {y y' : Line γ} (h : Later k n x x') (g : Later k n y y') {F : β → γ → δ} {fill : δ} :
    Later k n (stdop2 (List.zipWith F) fill x y) (stdop2 (List.zipWith F) fill x' y') := by
  obtain ⟨m, G, h1, h2⟩ := h
  obtain ⟨m', G', g1, g2⟩ := g
  exact Later.of (rep_binop h1 g1).toRepW (rep_binop h2 g2).toRepW (fun _ _ _ => rfl)

theorem Later.scal {x x' : Line β} (h : Later k n x x') {F : β → γ → δ} {fill : δ} {c : γ} :
    Later k n (binopS F fill x c) (binopS F fill x' c) := by
  obtain ⟨m, G, h1, h2⟩ := h
  exact Later.of (rep_binopS h1).toRepW (rep_binopS h2).toRepW (fun _ _ _ => rfl)

theorem RepW.up {l : Line β} {n m : ℕ} {G : ℕ → β} (h : RepW l n m G) (j : ℕ) :
    RepW ⟨l.series, l.minperiod + j⟩ n (m + j) G :=
  ⟨h.len, by simp only; rw [h.mp]; push_cast; rfl, by have := h.pos; omega, fun i hi => h.val i (by omega)⟩

theorem Later.up {x x' : Line β} (h : Later k n x x') (j : ℕ) :
    Later k n ⟨x.series, x.minperiod + j⟩ ⟨x'.series, x'.minperiod + j⟩ := by
  obtain ⟨m, G, h1, h2⟩ := h
  exact ⟨m + j, G, h1.up j, h2.up j⟩

theorem wnd_shift (G : ℕ → β) {w i : ℕ} (h : w ≤ i + 1) : wnd (fun j => G (j + k)) w i = wnd G w (i + k) := by
  unfold wnd
  refine List.map_congr_left ?_
  intro j _
  exact congrArg G (by omega)

/-- leaving out older bars -/
def laterRel (V : Type) [PyFloat V] (k n : ℕ) : LRel V where
  rv := Later k n
  rb := Later k n
  acc := False
  plain := False
  early := False
  anyLoop := False
  pos := by
    rintro a a' ⟨m, G, h1, h2⟩
    rw [h1.mp]
    have := h1.pos
    omega
  pos' := by
    rintro a a' ⟨m, G, h1, h2⟩
    rw [h2.mp]
    have := h2.pos
    omega
  bin := fun h g => h.zip g
  binS := fun h => h.scal
  cmp := fun h g => h.zip g
  cmpS := fun h => h.scal
  logic := fun h g => h.zip g
  binB := fun h g => h.zip g
  binBS := fun h => h.scal
  binUp := fun h g => h.zip (g.up 1)
  map := by
    rintro f a a' ⟨m, G, h1, h2⟩
    exact Later.of (rep_mapOp h1).toRepW (rep_mapOp h2).toRepW (fun _ _ _ => rfl)
  map2 := fun h g => h.zip g
  mask := by
    intro f j a a' b b' h g
    rw [period_none, period_none]
    exact (h.up j).zip g
  shift := by
    rintro s a a' ⟨m, G, h1, h2⟩
    refine Later.of (rep_shift h1).toRepW (rep_shift h2).toRepW ?_
    intro i hi _
    have := h1.pos
    exact congrArg G (by omega)
  nothing := by
    rintro a a' ⟨m, G, h1, h2⟩
    refine ⟨m, fun _ => nan, ⟨?_, ?_, h1.pos, ?_⟩, ⟨?_, ?_, h1.pos, ?_⟩⟩
    · simp [clone, h1.len]
    · simp [clone, h1.mp]
    · intro i _ hi; simp only [clone, h1.len]; rw [List.getElem?_replicate, if_pos hi]
    · simp [clone, h2.len]
    · simp [clone, h2.mp]
    · intro i _ hi; simp only [clone, h2.len]; rw [List.getElem?_replicate, if_pos hi]
  diff := by
    rintro s a a' ⟨m, G, h1, h2⟩
    refine Later.of (rep_diff h1).toRepW (rep_diff h2).toRepW ?_
    intro i hi _
    have := h1.pos
    rw [show i - s + k = i + k - s by omega]
  rolling := by
    rintro w agg a a' hw ⟨m, G, h1, h2⟩
    refine Later.of (rep_rolling hw h1).toRepW (rep_rolling hw h2).toRepW ?_
    intro i hi _
    have := h1.pos
    rw [wnd_shift _ (by omega)]
  rolling2 := by
    rintro w agg a a' b b' hw hc ⟨m, G, h1, h2⟩ ⟨m', G', g1, g2⟩
    have hm : m' ≤ m := by
      rcases hc with hc | hc
      · exact hc.elim
      · rw [h1.mp, g1.mp] at hc; omega
    refine Later.of (rep_rolling2 hw h1 g1 hm).toRepW (rep_rolling2 hw h2 g2 hm).toRepW ?_
    intro i hi _
    have := h1.pos
    rw [← wnd_shift (k := k) (fun i => (G i, G' i)) (by omega)]
  cum := fun h => h.elim
  pct := fun h => h.elim
  back := fun h => h.elim
  fill := fun h => h.elim
  loop := fun h => h.elim
  loopAny := fun h => h.elim
  loopAny2 := fun h => h.elim
  tails := fun h => h.elim
  ewm := fun h => h.elim
  dyn := fun h => h.elim
  unseeded := fun h => h.elim
  sar := fun h => h.elim
  absIdx := fun h => h.elim

end later

/-! ## any data -/

/-- same minimum period; the data may be others -/
def SameMp (l l' : Line β) : Prop := 1 ≤ l.minperiod ∧ l'.minperiod = l.minperiod

theorem SameMp.mk {s s' : Line β} {r r' : List γ} {m : Int} (h : 1 ≤ m) : SameMp (clone s r m) (clone s' r' m) := by
  unfold clone SameMp
  simp only
  rw [if_neg (by omega), if_neg (by omega)]
  exact ⟨h, rfl⟩

theorem SameMp.zip {x x' : Line β} {y y' : Line γ} (h : SameMp x x') (g : SameMp y y') {F : List β → List γ → List δ}
    {fill : δ} : SameMp (stdop2 F fill x y) (stdop2 F fill x' y') := by
  unfold stdop2
  simp only [h.2, g.2]
  exact SameMp.mk (by have := h.1; omega)

theorem SameMp.scal {x x' : Line β} (h : SameMp x x') {F : β → γ → δ} {fill : δ} {c : γ} :
    SameMp (binopS F fill x c) (binopS F fill x' c) := by
  unfold binopS
  simp only [h.2]
  exact SameMp.mk (by have := h.1; omega)

theorem SameMp.std {x x' : Line β} (h : SameMp x x') {g : List β → List γ} {fill : γ} {inc : ℕ} :
    SameMp (stdop g fill inc x) (stdop g fill inc x') := by
  unfold stdop SameMp clone
  simp only [h.2]
  have := h.1
  rw [if_neg (by omega)]
  exact ⟨by omega, trivial⟩

theorem SameMp.up {x x' : Line β} (h : SameMp x x') (j : ℕ) :
    SameMp (⟨x.series, x.minperiod + j⟩ : Line β) ⟨x'.series, x'.minperiod + j⟩ := by
  unfold SameMp at *
  simp only
  omega

/-- any data -/
def mpRel (V : Type) [PyFloat V] : LRel V where
  rv := SameMp
  rb := SameMp
  acc := False
  plain := False
  early := False
  anyLoop := False
  pos := fun h => h.1
  pos' := fun h => by have := h.1; have := h.2; omega
  bin := fun h g => h.zip g
  binS := fun h => h.scal
  cmp := fun h g => h.zip g
  cmpS := fun h => h.scal
  logic := fun h g => h.zip g
  binB := fun h g => h.zip g
  binBS := fun h => h.scal
  binUp := fun h g => h.zip (g.up 1)
  map := fun h => h.std (inc := 0)
  map2 := fun h g => h.zip g
  mask := by
    intro f j a a' b b' h g
    rw [period_none, period_none]
    exact (h.up j).zip g
  shift := fun h => h.std
  nothing := by
    intro a a' h
    unfold SameMp clone at *
    simpa using h
  diff := fun h => h.std
  rolling := by
    intro w agg a a' hw h
    unfold Line.rolling
    simp only [h.2]
    exact SameMp.mk (by omega)
  rolling2 := by
    intro w agg a a' b b' hw _ h g
    unfold Line.rolling2
    simp only [h.2]
    exact SameMp.mk (by omega)
  cum := fun h => h.elim
  pct := fun h => h.elim
  back := fun h => h.elim
  fill := fun h => h.elim
  loop := fun h => h.elim
  loopAny := fun h => h.elim
  loopAny2 := fun h => h.elim
  tails := fun h => h.elim
  ewm := fun h => h.elim
  dyn := fun h => h.elim
  unseeded := fun h => h.elim
  sar := fun h => h.elim
  absIdx := fun h => h.elim

end Bta
