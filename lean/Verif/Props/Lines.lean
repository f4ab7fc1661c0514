import Verif.Expr
import Verif.Lemmas.Causal

/-!
# Properties of line operations: C01 - C05, C65 (for all programs built from them)
-/

set_option linter.unusedSectionVars false

namespace Bta
open Line

variable {V : Type} [PyFloat V]

/-! ## Specification: bars needed before the first value (C04) -/

/-- The number of bars an expression needs for its first value, in terms of the operators only. -/
def Expr.need : {ty : Ty} → Expr V ty → ℕ
  | _, .input _ => 1
  | _, .arith _ a b => max a.need b.need
  | _, .arithS _ a _ => a.need
  | _, .cmp _ a b => max a.need b.need
  | _, .cmpS _ a _ => a.need
  | _, .logic _ a b => max a.need b.need
  | _, .arithB _ a b => max a.need b.need
  | _, .arithBS _ a _ => a.need
  | _, .shift s a => a.need + s
  | _, .diff s a => a.need + s
  | _, .pct s a => a.need + s
  | _, .map _ a => a.need
  | _, .map2 _ a b => max a.need b.need
  | _, .cumsum a => a.need
  | _, .ffill a => a.need
  | _, .replaceZero a => a.need
  | _, .rolling w' _ a => a.need + w'
  | _, .ewm p' _ _ a => a.need + p'
  | _, .lfilter _ p' _ _ _ a => a.need + p'

/-- what the warm-up region holds -/
@[reducible] def Ty.fill : (ty : Ty) → ty.El V
  | .flt => (nan : V)
  | .bool => true

/-! ## Auxiliary -/

section aux

theorem bind_ok {α β : Type} {x : Except Err α} {f : α → Except Err β} {r : β} (h : (x >>= f) = .ok r) :
    ∃ a, x = .ok a ∧ f a = .ok r := by
  cases x with
  | error e => cases h
  | ok a => exact ⟨a, rfl, h⟩

/-- any line of `n` bars with minimum period at least 1 is described by its own values -/
theorem RepW.self {α : Type} {l : Line α} {n m : ℕ} (d : α) (hl : l.series.length = n) (hm : l.minperiod = (m : Int))
    (h1 : 1 ≤ m) : RepW l n m (fun i => l.series.getD i d) where
  len := hl
  mp := hm
  pos := h1
  val := by
    intro i _ hi
    simp only [List.getD_eq_getElem?_getD]
    rw [List.getElem?_eq_getElem (by omega)]; rfl

theorem ewm_rep_generic {c : EwmCfg} (p : ℕ) (hp : 1 ≤ p) (hc : c = { pval := (p : Int), seed := c.seed })
    (hs : c.seed ≠ .none ∧ c.seed ≠ .zfill)
    {a r : Line V} {n m : ℕ} {g : ℕ → V} (ha : RepW a n m g)
    {op : List V → Except Err (List V)} {k : List V → List V} (hk : CausalL k) (hop : ∀ t, t ≠ [] → op t = .ok (k t))
    (h : (match ewmNew c a with | .error e => (.error e : Except Err (Line V)) | .ok o => ewmCall c a o op) = .ok r) :
    ∃ E, Rep nan r n (m + p - 1) E := by
  have hpos := ha.pos
  have hp2 : c.p2 a.minperiod = ((m + p - 1 : ℕ) : Int) := by
    rw [hc]
    unfold EwmCfg.p2
    simp only [ha.mp, ne_eq, not_true_eq_false, if_false]
    rw [if_neg (by omega)]
    omega
  have hpv : c.pval = p := by rw [hc]
  have hpe : c.pearly = 0 := by rw [hc]
  have hal : c.alphaP = 1 := by rw [hc]
  have hgood : EwmGood c a.minperiod := by
    constructor
    · rw [hp2]; omega
    · rw [hp2, hpv]; omega
    · rw [hpv]; omega
    · rw [hpv, hpe, hal, ha.mp]; omega
  cases hn : ewmNew c a with
  | error e => rw [hn] at h; cases h
  | ok o =>
    have hlen := ewmNew_of_ok hgood hn hs
    rw [hp2, ha.len] at hlen
    have hlen' : m + p - 1 ≤ n := by omega
    set L := k (seedVal c.seed a.series (((m + p - 1 : ℕ) : Int) - c.pval) (((m + p - 1 : ℕ) : Int) - 1)
      ((m + p - 1 : ℕ) : Int) :: tail n (m + p - 1) g) with hL
    have hLlen : L.length = n - (m + p - 1 - 1) := by
      rw [hL, hk.len]; simp; omega
    obtain ⟨o', r', h1, h2, h3⟩ := rep_ewmCall (c := c) ha hp2 (by omega) hlen' (by
      rw [hpv, hpe, hal]; omega) (op := op)
      (E := fun i => L.getD (i - (m + p - 1 - 1)) nan) (by
        rw [hop _ (by simp), ← hL]
        congr 1
        refine tail_ext hLlen ?_
        intro j hj
        rw [show j + (m + p - 1 - 1) - (m + p - 1 - 1) = j from by omega, List.getD_eq_getElem?_getD,
          List.getElem?_eq_getElem (by omega)]; rfl)
    rw [h1] at h
    simp only at h
    rw [h2] at h
    injection h with h
    exact ⟨_, h ▸ h3⟩

theorem CausalL.spLfilter' (al be : V) :
    CausalL (fun t : List V => match t with | [] => [] | x :: xs => Line.lfilterGo al be (lit 0) (x / al :: xs)) where
  len := by
    intro xs; cases xs with
    | nil => rfl
    | cons x xs => simp [(CausalL.lfilterGo al be _).len]
  pre := by
    intro xs ys h
    cases xs with
    | nil => exact List.nil_prefix
    | cons x xs =>
      obtain ⟨t, rfl⟩ := h
      exact (CausalL.lfilterGo al be _).pre _ _ ((List.prefix_cons_inj _).mpr (List.prefix_append _ _))

theorem CausalL.smAcc' (al be : V) :
    CausalL (fun t : List V => match t with | [] => [] | x :: xs => x :: Line.smAccGo al be x xs) where
  len := by
    intro xs; cases xs with
    | nil => rfl
    | cons x xs => simp [(CausalL.smAccGo al be _).len]
  pre := by
    intro xs ys h
    cases xs with
    | nil => exact List.nil_prefix
    | cons x xs =>
      obtain ⟨t, rfl⟩ := h
      exact (List.prefix_cons_inj _).mpr ((CausalL.smAccGo al be x).pre _ _ (List.prefix_append _ _))

/-- the total version of `lfilter` on non-empty data -/
def lfilterK (sp : Bool) (al : V) (be : Option V) (t : List V) : List V :=
  if sp then (match t with | [] => [] | x :: xs => Line.lfilterGo al (betaOf al be) (lit 0) (x / al :: xs))
  else (match t with | [] => [] | x :: xs => x :: Line.smAccGo al (betaOf al be) x xs)

theorem CausalL.lfilterK (sp : Bool) (al : V) (be : Option V) : CausalL (lfilterK sp al be) := by
  cases sp
  · exact CausalL.smAcc' al (betaOf al be)
  · exact CausalL.spLfilter' al (betaOf al be)

theorem lfilter_eq (sp : Bool) (al : V) (be : Option V) (t : List V) (h : t ≠ []) :
    lfilter sp al be t = .ok (lfilterK sp al be t) := by
  cases t with
  | nil => exact absurd rfl h
  | cons x xs => cases sp <;> rfl

theorem CausalL.prep : CausalL (prepL (V := V)) := CausalL.map _

theorem lfilter_prep_eq (sp : Bool) (al : V) (be : Option V) (t : List V) (h : t ≠ []) :
    lfilter sp al be (prepL t) = .ok (lfilterK sp al be (prepL t)) := by
  apply lfilter_eq
  cases t with
  | nil => exact absurd rfl h
  | cons x xs => simp [prepL]

end aux

/-- All of C02, C03, C04, C65 in one induction. -/
theorem Expr.rep (n : ℕ) (env : ℕ → Line V) (henv : ∀ k, (env k).series.length = n)
    (hmp : ∀ k, (env k).minperiod = 1) :
    ∀ {ty : Ty} (e : Expr V ty) (r), e.eval env = .ok r → ∃ g, Rep ty.fill r n e.need g := by
  intro ty e
  induction e with
  | input k =>
    intro r h
    injection h with h
    subst h
    exact ⟨_, { RepW.self (m := 1) nan (henv k) (hmp k) (le_refl _) with pre := fun i h => by simp [need] at h }⟩
  | arith f a b iha ihb =>
    intro r h
    obtain ⟨la, hla, h⟩ := bind_ok h
    obtain ⟨lb, hlb, h⟩ := bind_ok h
    injection h with h; subst h
    obtain ⟨ga, ha⟩ := iha _ hla
    obtain ⟨gb, hb⟩ := ihb _ hlb
    exact ⟨_, rep_binop ha.toRepW hb.toRepW⟩
  | arithS f a c iha =>
    intro r h
    obtain ⟨la, hla, h⟩ := bind_ok h
    injection h with h; subst h
    obtain ⟨ga, ha⟩ := iha _ hla
    exact ⟨_, rep_binopS ha.toRepW⟩
  | cmp f a b iha ihb =>
    intro r h
    obtain ⟨la, hla, h⟩ := bind_ok h
    obtain ⟨lb, hlb, h⟩ := bind_ok h
    injection h with h; subst h
    obtain ⟨ga, ha⟩ := iha _ hla
    obtain ⟨gb, hb⟩ := ihb _ hlb
    exact ⟨_, rep_binop ha.toRepW hb.toRepW⟩
  | cmpS f a c iha =>
    intro r h
    obtain ⟨la, hla, h⟩ := bind_ok h
    injection h with h; subst h
    obtain ⟨ga, ha⟩ := iha _ hla
    exact ⟨_, rep_binopS ha.toRepW⟩
  | logic f a b iha ihb =>
    intro r h
    obtain ⟨la, hla, h⟩ := bind_ok h
    obtain ⟨lb, hlb, h⟩ := bind_ok h
    injection h with h; subst h
    obtain ⟨ga, ha⟩ := iha _ hla
    obtain ⟨gb, hb⟩ := ihb _ hlb
    exact ⟨_, rep_binop ha.toRepW hb.toRepW⟩
  | arithB f a b iha ihb =>
    intro r h
    obtain ⟨la, hla, h⟩ := bind_ok h
    obtain ⟨lb, hlb, h⟩ := bind_ok h
    injection h with h; subst h
    obtain ⟨ga, ha⟩ := iha _ hla
    obtain ⟨gb, hb⟩ := ihb _ hlb
    exact ⟨_, rep_binop ha.toRepW hb.toRepW⟩
  | arithBS f a c iha =>
    intro r h
    obtain ⟨la, hla, h⟩ := bind_ok h
    injection h with h; subst h
    obtain ⟨ga, ha⟩ := iha _ hla
    exact ⟨_, rep_binopS ha.toRepW⟩
  | shift s a iha =>
    intro r h
    obtain ⟨la, hla, h⟩ := bind_ok h
    injection h with h; subst h
    obtain ⟨ga, ha⟩ := iha _ hla
    exact ⟨_, rep_shift ha.toRepW⟩
  | diff s a iha =>
    intro r h
    obtain ⟨la, hla, h⟩ := bind_ok h
    injection h with h; subst h
    obtain ⟨ga, ha⟩ := iha _ hla
    exact ⟨_, rep_diff ha.toRepW⟩
  | pct s a iha =>
    intro r h
    obtain ⟨la, hla, h⟩ := bind_ok h
    injection h with h; subst h
    obtain ⟨ga, ha⟩ := iha _ hla
    have hlen := (CausalL.pctChange (V := V) s).len (tail n (a.need - 1) ga)
    rw [tail_length] at hlen
    have hpos := ha.pos
    refine ⟨fun i => (pctChangeL s (tail n (a.need - 1) ga)).getD (i - (a.need - 1)) nan,
      rep_stdop ha.toRepW ?_ ?_⟩
    · refine tail_ext hlen ?_
      intro j hj
      rw [show j + (a.need - 1) - (a.need - 1) = j from by omega, List.getD_eq_getElem?_getD,
        List.getElem?_eq_getElem (by omega)]; rfl
    · intro i h1 h2 h3
      rw [List.getD_eq_getElem?_getD]
      unfold pctChangeL
      rw [List.getElem?_append_left (by simp; omega)]
      simp only [List.getElem?_replicate, tail_length]
      rw [if_pos (by omega)]; rfl
  | map f a iha =>
    intro r h
    obtain ⟨la, hla, h⟩ := bind_ok h
    injection h with h; subst h
    obtain ⟨ga, ha⟩ := iha _ hla
    exact ⟨_, rep_mapOp ha.toRepW⟩
  | map2 f a b iha ihb =>
    intro r h
    obtain ⟨la, hla, h⟩ := bind_ok h
    obtain ⟨lb, hlb, h⟩ := bind_ok h
    injection h with h; subst h
    obtain ⟨ga, ha⟩ := iha _ hla
    obtain ⟨gb, hb⟩ := ihb _ hlb
    exact ⟨_, rep_stdop2 ha.toRepW hb.toRepW (zipWith_tail _ _ _ _ _)⟩
  | cumsum a iha =>
    intro r h
    obtain ⟨la, hla, h⟩ := bind_ok h
    injection h with h; subst h
    obtain ⟨ga, ha⟩ := iha _ hla
    have hlen := (CausalL.cumsum (V := V)).len (tail n (a.need - 1) ga)
    rw [tail_length] at hlen
    refine ⟨fun i => (cumsumL (tail n (a.need - 1) ga)).getD (i - (a.need - 1)) nan,
      (rep_stdop (inc := 0) ha.toRepW ?_ ?_).congr rfl (fun _ _ _ => rfl)⟩
    · refine tail_ext hlen ?_
      intro j hj
      rw [show j + (a.need - 1) - (a.need - 1) = j from by omega, List.getD_eq_getElem?_getD,
        List.getElem?_eq_getElem (by omega)]; rfl
    · intro i h1 h2; omega
  | ffill a iha =>
    intro r h
    obtain ⟨la, hla, h⟩ := bind_ok h
    injection h with h; subst h
    obtain ⟨ga, ha⟩ := iha _ hla
    have hlen := (CausalL.ffill (V := V)).len (tail n (a.need - 1) ga)
    rw [tail_length] at hlen
    refine ⟨fun i => (ffillL (tail n (a.need - 1) ga)).getD (i - (a.need - 1)) nan,
      (rep_stdop (inc := 0) ha.toRepW ?_ ?_).congr rfl (fun _ _ _ => rfl)⟩
    · refine tail_ext hlen ?_
      intro j hj
      rw [show j + (a.need - 1) - (a.need - 1) = j from by omega, List.getD_eq_getElem?_getD,
        List.getElem?_eq_getElem (by omega)]; rfl
    · intro i h1 h2; omega
  | replaceZero a iha =>
    intro r h
    obtain ⟨la, hla, h⟩ := bind_ok h
    injection h with h; subst h
    obtain ⟨ga, ha⟩ := iha _ hla
    have hlen := (CausalL.replaceZero (V := V)).len (tail n (a.need - 1) ga)
    rw [tail_length] at hlen
    refine ⟨fun i => (replaceZeroL (tail n (a.need - 1) ga)).getD (i - (a.need - 1)) nan,
      (rep_stdop (inc := 0) ha.toRepW ?_ ?_).congr rfl (fun _ _ _ => rfl)⟩
    · refine tail_ext hlen ?_
      intro j hj
      rw [show j + (a.need - 1) - (a.need - 1) = j from by omega, List.getD_eq_getElem?_getD,
        List.getElem?_eq_getElem (by omega)]; rfl
    · intro i h1 h2; omega
  | rolling w' agg a iha =>
    intro r h
    obtain ⟨la, hla, h⟩ := bind_ok h
    injection h with h; subst h
    obtain ⟨ga, ha⟩ := iha _ hla
    exact ⟨_, rep_rolling (by omega) ha.toRepW⟩
  | ewm p' seed al a iha =>
    intro r h
    obtain ⟨la, hla, h⟩ := bind_ok h
    obtain ⟨ga, ha⟩ := iha _ hla
    exact ewm_rep_generic (c := { pval := (p' + 1 : ℕ), seed := seed }) (p' + 1) (by omega) rfl seed.2 ha.toRepW (CausalL.ewm al) (fun _ _ => rfl) h
  | lfilter sp p' seed al be a iha =>
    intro r h
    obtain ⟨la, hla, h⟩ := bind_ok h
    obtain ⟨ga, ha⟩ := iha _ hla
    exact ewm_rep_generic (c := { pval := (p' + 1 : ℕ), seed := seed }) (p' + 1) (by omega) rfl seed.2 ha.toRepW
      ((CausalL.lfilterK sp al be).comp CausalL.prep) (lfilter_prep_eq sp al be) h

theorem ewmGood_std {p : ℕ} (hp : 1 ≤ p) {seed : Seed} {mp : Int} (h : 1 ≤ mp) :
    EwmGood { pval := (p : Int), seed := seed } mp := by
  have : EwmCfg.p2 { pval := (p : Int), seed := seed } mp = mp - 1 + p := by
    unfold EwmCfg.p2
    simp only [ne_eq, not_true_eq_false, if_false]
    rw [if_neg (by omega)]; omega
  constructor <;> simp only [this] <;> omega

/-- causality in relational form -/
theorem Expr.pref (n n' : ℕ) (env env' : ℕ → Line V) (henv : ∀ k, (env k).series.length = n)
    (henv' : ∀ k, (env' k).series.length = n')
    (hmp : ∀ k, (env k).minperiod = 1) (hmp' : ∀ k, (env' k).minperiod = 1) (hp : ∀ k, Pref (env k) (env' k)) :
    ∀ {ty : Ty} (e : Expr V ty), PrefE (e.eval env) (e.eval env') := by
  have L : ∀ {ty : Ty} (e : Expr V ty) (r), e.eval env = .ok r → r.series.length = n := by
    intro ty e r h; obtain ⟨g, hg⟩ := Expr.rep n env henv hmp e r h; exact hg.len
  have L' : ∀ {ty : Ty} (e : Expr V ty) (r), e.eval env' = .ok r → r.series.length = n' := by
    intro ty e r h; obtain ⟨g, hg⟩ := Expr.rep n' env' henv' hmp' e r h; exact hg.len
  intro ty e
  induction e with
  | input k => exact PrefE.ok (hp k)
  | arith f a b iha ihb =>
    exact PrefE.bind iha fun x x' hx hx' px => PrefE.bind ihb fun y y' hy hy' py =>
      PrefE.ok (pref_binop px py (by rw [L a x hx, L b y hy]) (by rw [L' a x' hx', L' b y' hy']))
  | arithS f a c iha => exact PrefE.bind iha fun x x' hx hx' px => PrefE.ok (pref_binopS px)
  | cmp f a b iha ihb =>
    exact PrefE.bind iha fun x x' hx hx' px => PrefE.bind ihb fun y y' hy hy' py =>
      PrefE.ok (pref_binop px py (by rw [L a x hx, L b y hy]) (by rw [L' a x' hx', L' b y' hy']))
  | cmpS f a c iha => exact PrefE.bind iha fun x x' hx hx' px => PrefE.ok (pref_binopS px)
  | logic f a b iha ihb =>
    exact PrefE.bind iha fun x x' hx hx' px => PrefE.bind ihb fun y y' hy hy' py =>
      PrefE.ok (pref_binop px py (by rw [L a x hx, L b y hy]) (by rw [L' a x' hx', L' b y' hy']))
  | arithB f a b iha ihb =>
    exact PrefE.bind iha fun x x' hx hx' px => PrefE.bind ihb fun y y' hy hy' py =>
      PrefE.ok (pref_binop px py (by rw [L a x hx, L b y hy]) (by rw [L' a x' hx', L' b y' hy']))
  | arithBS f a c iha => exact PrefE.bind iha fun x x' hx hx' px => PrefE.ok (pref_binopS px)
  | shift s a iha =>
    exact PrefE.bind iha fun x x' hx hx' px => PrefE.ok (pref_stdop (CausalL.shift s) (by omega) px)
  | diff s a iha =>
    exact PrefE.bind iha fun x x' hx hx' px => PrefE.ok (pref_stdop (CausalL.diff s) (by omega) px)
  | pct s a iha =>
    exact PrefE.bind iha fun x x' hx hx' px => PrefE.ok (pref_stdop (CausalL.pctChange s) (by omega) px)
  | map f a iha =>
    exact PrefE.bind iha fun x x' hx hx' px => PrefE.ok (pref_stdop (CausalL.map f) (by omega) px)
  | map2 f a b iha ihb =>
    exact PrefE.bind iha fun x x' hx hx' px => PrefE.bind ihb fun y y' hy hy' py =>
      PrefE.ok (pref_stdop2 (CausalL2.zipWith f) px py (by rw [L a x hx, L b y hy]) (by rw [L' a x' hx', L' b y' hy']))
  | cumsum a iha =>
    exact PrefE.bind iha fun x x' hx hx' px => PrefE.ok (pref_stdop CausalL.cumsum (by omega) px)
  | ffill a iha =>
    exact PrefE.bind iha fun x x' hx hx' px => PrefE.ok (pref_stdop CausalL.ffill (by omega) px)
  | replaceZero a iha =>
    exact PrefE.bind iha fun x x' hx hx' px => PrefE.ok (pref_stdop CausalL.replaceZero (by omega) px)
  | rolling w' agg a iha =>
    exact PrefE.bind iha fun x x' hx hx' px => PrefE.ok (pref_rolling (by omega) px)
  | ewm p' seed al a iha =>
    exact PrefE.bind iha fun x x' hx hx' px =>
      pref_ewm (ewmGood_std (by omega) px.pos) px seed.2 (CausalL.ewm al) (fun _ _ => rfl)
  | lfilter sp p' seed al be a iha =>
    exact PrefE.bind iha fun x x' hx hx' px =>
      pref_ewm (ewmGood_std (by omega) px.pos) px seed.2 ((CausalL.lfilterK sp al be).comp CausalL.prep)
        (lfilter_prep_eq sp al be)

/-! ## C01: no repaint -/

/-- **C01**. Evaluate any program of line operations on inputs of `n` bars (`data k` is the `k`-th input) and on
extensions of these inputs: if the first evaluation delivers a line, so does the second, with the same minimum
period, and its first `n` bars are exactly the old ones. -/
theorem C01_no_repaint {ty : Ty} (e : Expr V ty) (n n' : ℕ) (data data' : ℕ → List V)
    (hn : ∀ k, (data k).length = n) (hn' : ∀ k, (data' k).length = n')
    (hext : ∀ k, data k <+: data' k) (r : Line (ty.El V))
    (h : e.eval (fun k => Line.ofSeries (data k)) = .ok r) :
    ∃ r', e.eval (fun k => Line.ofSeries (data' k)) = .ok r' ∧ r'.minperiod = r.minperiod ∧
      r'.series.take n = r.series := by
  have hP := Expr.pref n n' (fun k => ofSeries (data k)) (fun k => ofSeries (data' k)) hn hn' (fun _ => rfl)
    (fun _ => rfl) (fun k => ⟨le_refl _, rfl, hext k⟩) e
  obtain ⟨r', h1, h2⟩ := hP r h
  obtain ⟨g, hg⟩ := Expr.rep n (fun k => ofSeries (data k)) hn (fun _ => rfl) e r h
  refine ⟨r', h1, h2.mp.symm, ?_⟩
  have := List.prefix_iff_eq_take.mp h2.ser
  rw [hg.len] at this
  exact this.symm

/-! ## C02, C03, C04, C65 -/

/-- **C02**. Each line delivered by a program of line operations has exactly the bars of the inputs. -/
theorem C02_length {ty : Ty} (e : Expr V ty) (n : ℕ) (data : ℕ → List V) (hn : ∀ k, (data k).length = n)
    (r : Line (ty.El V)) (h : e.eval (fun k => Line.ofSeries (data k)) = .ok r) : r.series.length = n := by
  obtain ⟨g, hg⟩ := Expr.rep n (fun k => ofSeries (data k)) hn (fun _ => rfl) e r h
  exact hg.len

/-- **C03**. No value is delivered before the minimum period: each earlier bar of a float line is nan. -/
theorem C03_warmup_nan (e : Expr V .flt) (n : ℕ) (data : ℕ → List V) (hn : ∀ k, (data k).length = n)
    (r : Line V) (h : e.eval (fun k => Line.ofSeries (data k)) = .ok r) (i : ℕ) (hi : i < n)
    (hm : (i : Int) + 1 < r.minperiod) : r.series[i]? = some nan := by
  obtain ⟨g, hg⟩ := Expr.rep n (fun k => ofSeries (data k)) hn (fun _ => rfl) e r h
  have := hg.mp
  exact hg.pre i (by omega) hi

/-- **C04**. The minimum period declared is exactly the number of bars the operators need. -/
theorem C04_minperiod {ty : Ty} (e : Expr V ty) (n : ℕ) (data : ℕ → List V) (hn : ∀ k, (data k).length = n)
    (r : Line (ty.El V)) (h : e.eval (fun k => Line.ofSeries (data k)) = .ok r) : r.minperiod = e.need := by
  obtain ⟨g, hg⟩ := Expr.rep n (fun k => ofSeries (data k)) hn (fun _ => rfl) e r h
  exact hg.mp

/-- **C65** (negation). Each bar before the minimum period of a comparison (or combination of comparisons) is `True`:
the warm-up does report a signal, always. -/
theorem C65_comparison_warmup_true (e : Expr V .bool) (n : ℕ) (data : ℕ → List V) (hn : ∀ k, (data k).length = n)
    (r : Line Bool) (h : e.eval (fun k => Line.ofSeries (data k)) = .ok r) (i : ℕ) (hi : i < n)
    (hm : (i : Int) + 1 < r.minperiod) : r.series[i]? = some true := by
  obtain ⟨g, hg⟩ := Expr.rep n (fun k => ofSeries (data k)) hn (fun _ => rfl) e r h
  have := hg.mp
  exact hg.pre i (by omega) hi

end Bta
