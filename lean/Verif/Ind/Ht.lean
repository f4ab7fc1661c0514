import Verif.Ind.Core

/-!
# The Hilbert transform family (`ht_*.py`, `mama.py`)

All of them share one loop (`_periodize`), copied in each file.  It is modelled once (`htStep`) and completed with the
part each of them adds.  The functions of `math` are parameters, so that theorems hold for whatever they return.

`int(nan)` raises ValueError; where it does is calculated apart (`htCheck`).

Simplifications: literals are the exact decimal numbers; `fsum` is the plain sum (python's raises for +inf and -inf in one
window, the sum is nan here).  An index before the begin of an
array counts from its end, as in python; where python would raise IndexError the value is nan (`C41_*` show that such
a position is never read).
-/

set_option linter.unusedSectionVars false

namespace Bta
open Line

/-- `atan`, `sin`, `cos` and `int` as imported from `math` / builtins, and `RAD2DEG` (ht_dcphase.py:10-15). -/
structure HtFns (V : Type) where
  atan : V → V
  sin : V → V
  cos : V → V
  int : V → Except Err Nat
  rad2deg : V

variable {V : Type} [PyFloat V]

namespace Ind

/-- `if x` for a float: false for zero only (ht_dcperiod.py:108) -/
def truthy (x : V) : Bool := !(eqv x (lit 0))

/-- the variables of the loop of `_periodize` (ht_dcperiod.py:67-77); deques have 7 elements, newest last -/
structure HtSt (V : Type) where
  det : List V
  i1 : List V
  q1 : List V
  i2 : V
  q2 : V
  re : V
  im : V
  period : V
  smooth : V

/-- initial values (ht_dcperiod.py:68-77) -/
def HtSt.init : HtSt V :=
  { det := List.replicate 7 (lit 0), i1 := List.replicate 7 (lit 0), q1 := List.replicate 7 (lit 0),
    i2 := lit 0, q2 := lit 0, re := lit 0, im := lit 0, period := lit 0, smooth := lit 0 }

/-- `deque(maxlen=7).append(v)` on a full deque (the deques of ht_dcperiod.py:67-70) -/
def deqAppend (d : List V) (v : V) : List V := d.drop 1 ++ [v]

/-- `x[i]` (ht_dcperiod.py:55-57) -/
def htAt (x : List V) (i : Int) : V := (pyGet x i).getD nan

/-- `_ht(x, adjperiod, i)` (ht_dcperiod.py:55-57) -/
def htHt (x : List V) (adj : V) (i : Int) : V :=
  (lit (962 / 10000) * htAt x i + lit (5769 / 10000) * htAt x (i - 2) - lit (5769 / 10000) * htAt x (i - 4)
    - lit (962 / 10000) * htAt x (i - 6)) * adj

/-- the new `period` (ht_dcperiod.py:107-113) -/
def htPeriod (F : HtFns V) (re im period1 : V) : V :=
  let p := if truthy re && truthy im then lit 360 / (F.rad2deg * F.atan (im / re)) else period1
  let p := minV p (period1 * lit (3 / 2))
  let p := maxV p (period1 * lit (67 / 100))
  let p := maxV p (lit 6)
  let p := minV p (lit 50)
  lit (1 / 5) * p + lit (4 / 5) * period1

/-- one round of the loop (ht_dcperiod.py:80-115, the same lines in the other ht files).  In ht_phasor.py:86-90 and
mama.py:118-122 `i1`/`q1` are the zero filled output arrays instead of deques; they are read at the bars `i`, `i-2`,
`i-4`, `i-6`, which are the same values, and bars before the start of the loop hold the same zeros. -/
def htStep (F : HtFns V) (price : List V) (i : Nat) (s : HtSt V) : HtSt V :=
  let adj := lit (75 / 1000) * s.period + lit (54 / 100)
  let det := deqAppend s.det (htHt price adj i)
  let i10 := htAt det (-4)
  let q10 := htHt det adj 6
  let i1 := deqAppend s.i1 i10
  let q1 := deqAppend s.q1 q10
  let ji := htHt i1 adj 6
  let jq := htHt q1 adj 6
  let i2 := i10 - jq
  let q2 := q10 + ji
  let i2 := lit (1 / 5) * i2 + lit (4 / 5) * s.i2
  let q2 := lit (1 / 5) * q2 + lit (4 / 5) * s.q2
  let re0 := i2 * s.i2 + q2 * s.q2
  let im0 := i2 * s.q2 - q2 * s.i2
  let re := lit (1 / 5) * re0 + lit (4 / 5) * s.re
  let im := lit (1 / 5) * im0 + lit (4 / 5) * s.im
  let period := htPeriod F re im s.period
  let smooth := lit (33 / 100) * period + lit (67 / 100) * s.smooth
  { det, i1, q1, i2, q2, re, im, period, smooth }

/-- `for i in range(start, len(price)): ...; buffer[i] = out` from bar `i` on, for `k` bars (ht_dcperiod.py:79-116) -/
def htGo {σ : Type} (step : Nat → σ → σ) (out : σ → V) : Nat → Nat → σ → List V
  | 0, _, _ => []
  | k + 1, i, s => out (step i s) :: htGo step out k (i + 1) (step i s)

/-- the buffer of results: zeros (`p0smooth(val=0.0)`) before `LOOKSTART` (ht_dcperiod.py:49, 65, 79-118) -/
def htBuf {σ : Type} (start len : Nat) (step : Nat → σ → σ) (out : σ → V) (s0 : σ) : List V :=
  List.replicate (min start len) (lit 0) ++ htGo step out (len - start) start s0

/-- `price[0:LOOKSTART] = 0.0` (ht_dcperiod.py:74) -/
def htZero (start : Nat) (price : List V) : List V := pyFill price 0 start (lit 0)

/-- `p0` with two inputs (ht_dcperiod.py:42) -/
def htMid (h l : Line V) : Line V := (h + l).divS (lit 2)

/-- `p0smooth` (ht_dcperiod.py:45-47) -/
def htSmooth (p0 : Line V) : Line V :=
  period 3 none
    ((((rmulS (lit 4) p0 + rmulS (lit 3) (ago (-1) p0)) + rmulS (lit 2) (ago (-2) p0)) + ago (-3) p0).divS (lit 10))

/-- `ht_dcperiod` (ht_dcperiod.py:33-118) -/
def htDcperiod (F : HtFns V) (p0 : Line V) : Line V :=
  period 26 (some nan) (apply (fun price =>
    htBuf 6 price.length (htStep F (htZero 6 price)) HtSt.smooth HtSt.init) nan (htSmooth p0))

/-- `ht_phasor` (ht_phasor.py:33-115): in-phase output -/
def htInphase (F : HtFns V) (p0 : Line V) : Line V :=
  period 26 (some nan) (apply (fun price =>
    htBuf 6 price.length (htStep F (htZero 6 price)) (fun s => htAt s.i1 6) HtSt.init) nan (htSmooth p0))

/-- `ht_phasor` (ht_phasor.py:33-115): quadrature output -/
def htQuadrature (F : HtFns V) (p0 : Line V) : Line V :=
  period 26 (some nan) (apply (fun price =>
    htBuf 6 price.length (htStep F (htZero 6 price)) (fun s => htAt s.q1 6) HtSt.init) nan (htSmooth p0))

/-- `dcperiod = int(smoothperiod + 0.5)` (ht_dcphase.py:120), where it does not raise (`htInts`) -/
def htDc (F : HtFns V) (s : HtSt V) : Nat := (F.int (s.smooth + lit (1 / 2))).toOption.getD 0

/-- the calls of `int` in the loop from bar `i` on, for `k` bars: the exception of the first one which raises
(ht_dcphase.py:82, 120; ht_sine.py:85, 123; ht_trendline.py:86, 125; ht_trendmode.py:90, 129).  What precedes them in a round
does not use what follows them, so looking at all rounds first finds the same exception. -/
def htInts (F : HtFns V) (price : List V) : Nat → Nat → HtSt V → Except Err Unit
  | 0, _, _ => .ok ()
  | k + 1, i, s => match F.int ((htStep F price i s).smooth + lit (1 / 2)) with
    | .error e => .error e
    | .ok _ => htInts F price k (i + 1) (htStep F price i s)

/-- whether `_periodize` of the indicators which look back a calculated number of bars raises: all start at bar 31 of
`p0smooth` (ht_dcphase.py:60-120, ht_sine.py:63-123, ht_trendline.py:63-125, ht_trendmode.py:65-129) -/
def htCheck (F : HtFns V) (p0 : Line V) : Except Err Unit :=
  let price := pyFrom (htSmooth p0).series ((htSmooth p0).minperiod - 1)
  htInts F (htZero 31 price) (price.length - 31) 31 HtSt.init

/-- `realpart` / `imagpart` (ht_dcphase.py:122-127) with `f` = sin / cos -/
def htPart (F : HtFns V) (f : V → V) (price : List V) (i dc : Nat) : V :=
  (List.range dc).foldl
    (fun acc (dci : Nat) => acc + f (lit dci * (lit 360 / F.rad2deg) / lit dc) * htAt price ((i : Int) - dci)) (lit 0)

/-- the new `dcphase` (ht_dcphase.py:129-145) -/
def htPhase (F : HtFns V) (smooth re im prev : V) : V :=
  let ph := if lt (lit 0) (absv im) then F.atan (re / im) * F.rad2deg
    else if le (absv im) (lit (1 / 100)) then
      if lt re (lit 0) then prev - lit 90 else if lt (lit 0) re then prev + lit 90 else prev
    else prev
  let ph := ph + lit 90
  let ph := ph + lit 360 / smooth
  let ph := if lt im (lit 0) then ph + lit 180 else ph
  if lt (lit 315) ph then ph - lit 360 else ph

/-- one round of the loop of ht_dcphase.py:82-147 (also ht_sine.py) -/
def htPhStep (F : HtFns V) (price : List V) (i : Nat) (s : HtSt V × V) : HtSt V × V :=
  let t := htStep F price i s.1
  let dc := htDc F t
  (t, htPhase F t.smooth (htPart F F.sin price i dc) (htPart F F.cos price i dc) s.2)

/-- `ht_dcphase` (ht_dcphase.py:34-149) -/
def htDcphase (F : HtFns V) (p0 : Line V) : Line V :=
  period 57 (some nan) (apply (fun price =>
    htBuf 31 price.length (htPhStep F (htZero 31 price)) Prod.snd (HtSt.init, lit 0)) nan (htSmooth p0))

/-- `sin(dcphase * DEG2RAD)` (ht_sine.py:150) -/
def htSin (F : HtFns V) (ph : V) : V := F.sin (ph * (lit 1 / F.rad2deg))

/-- `sin((dcphase + 45.0) * DEG2RAD)` (ht_sine.py:151) -/
def htLead (F : HtFns V) (ph : V) : V := F.sin ((ph + lit 45) * (lit 1 / F.rad2deg))

/-- `ht_sine` (ht_sine.py:35-153): sine -/
def htSine (F : HtFns V) (p0 : Line V) : Line V :=
  period 57 (some nan) (apply (fun price =>
    htBuf 31 price.length (htPhStep F (htZero 31 price)) (fun s => htSin F s.2) (HtSt.init, lit 0)) nan (htSmooth p0))

/-- `ht_sine` (ht_sine.py:35-153): leadsine -/
def htLeadsine (F : HtFns V) (p0 : Line V) : Line V :=
  period 57 (some nan) (apply (fun price =>
    htBuf 31 price.length (htPhStep F (htZero 31 price)) (fun s => htLead F s.2) (HtSt.init, lit 0)) nan (htSmooth p0))

/-- state of the trend line: the common part, `it1`, `it2`, `it3` and the last value written (ht_trendline.py:82-85, 125-132) -/
structure TlSt (V : Type) where
  ht : HtSt V
  it1 : V
  it2 : V
  it3 : V
  out : V

/-- initial values (ht_trendline.py:82-85) -/
def TlSt.init : TlSt V := ⟨HtSt.init, lit 0, lit 0, lit 0, lit 0⟩

/-- `it0` (ht_trendline.py:125-128) -/
def htIt0 (price0 : List V) (i dc : Nat) : V :=
  let it0 := sumV (pySlice price0 ((i : Int) - ((dc : Int) - 1)) ((i : Int) + 1))
  if 0 < dc then it0 / lit dc else it0

/-- what follows the common part (ht_trendline.py:125-132), given the new common state -/
def tlNext (F : HtFns V) (price0 : List V) (i : Nat) (t : HtSt V) (s : TlSt V) : TlSt V :=
  let it0 := htIt0 price0 i (htDc F t)
  ⟨t, it0, s.it1, s.it2, (lit 4 * it0 + lit 3 * s.it1 + lit 2 * s.it2 + s.it3) / lit 10⟩

/-- `ht_trendline` (ht_trendline.py:33-134) -/
def htTrendline (F : HtFns V) (p0 : Line V) : Line V :=
  period 57 (some nan) (apply2 (fun price price0 =>
    htBuf 31 price.length (fun i s => tlNext F price0 i (htStep F (htZero 31 price) i s.ht) s) TlSt.out TlSt.init)
    nan (htSmooth p0) p0)

/-- state of the trend mode: trend line part, `dcphase`, `sine`, `leadsine`, `daysintrend` and the last value written (ht_trendmode.py:83-88) -/
structure TmSt (V : Type) where
  tl : TlSt V
  ph : V
  sine : V
  lead : V
  days : Nat
  trend : Nat

/-- initial values (ht_trendmode.py:83-88) -/
def TmSt.init : TmSt V := ⟨TlSt.init, lit 0, lit 0, lit 0, 0, 0⟩

/-- the decision (ht_trendmode.py:173-193): values of this bar, of the previous bar, days in trend so far.
Returns `daysintrend` and `trend`. -/
def tmTrend (smooth ph ph1 sine lead sine1 lead1 price line : V) (days : Nat) : Nat × Nat :=
  let cross := (lt lead sine && le sine1 lead1) || (lt sine lead && le lead1 sine1)
  let days := if cross then 0 else days
  let trend := if cross then 0 else 1
  let days := days + 1
  let trend := if lt (lit days) (lit (1 / 2) * smooth) then 0 else trend
  let trend := if truthy smooth then
      let phdiff := ph - ph1
      let sm360 := lit 360 / smooth
      if lt (lit (67 / 100) * sm360) phdiff && lt phdiff (lit (3 / 2) * sm360) then 0 else trend
    else trend
  let trend := if truthy line then
      if le (lit (15 / 1000)) (absv (price / line - lit 1)) then 1 else trend
    else trend
  (days, trend)

/-- one round of the loop of ht_trendmode.py:90-195 -/
def tmStep (F : HtFns V) (price price0 : List V) (i : Nat) (s : TmSt V) : TmSt V :=
  let t := htStep F price i s.tl.ht
  let dc := htDc F t
  let ph := htPhase F t.smooth (htPart F F.sin price i dc) (htPart F F.cos price i dc) s.ph
  let sine := htSin F ph
  let lead := htLead F ph
  let tl := tlNext F price0 i t s.tl
  let r := tmTrend t.smooth ph s.ph sine lead s.sine s.lead (htAt price i) tl.out s.days
  ⟨tl, ph, sine, lead, r.1, r.2⟩

/-- `ht_trendmode` (ht_trendmode.py:35-197) -/
def htTrendmode (F : HtFns V) (p0 : Line V) : Line V :=
  period 57 (some nan) (apply2 (fun price price0 =>
    htBuf 31 price.length (tmStep F (htZero 31 price) price0) (fun s => lit s.trend) TmSt.init) nan (htSmooth p0) p0)

/-- `q1.mask(i1 == 0.0, 0.0)` (mama.py:66): 0 where the condition holds -/
def maskL (q : Line V) (c : Line Bool) : Line V := stdop2 (List.zipWith fun x b => if b then lit 0 else x) nan q c

/-- `mama` (mama.py:46-89): outputs mama, fama.  `arctan` is numpy's. -/
def mama (F : HtFns V) (arctan : V → V) (fastlimit slowlimit : V) (p0 : Line V) : Except Err (Line V × Line V) := do
  let i1 := apply (fun price =>
    htBuf 6 price.length (htStep F (htZero 6 price)) (fun s => htAt s.i1 6) HtSt.init) nan (htSmooth p0)
  let q1 := period 6 none (apply (fun price =>
    htBuf 6 price.length (htStep F (htZero 6 price)) (fun s => htAt s.q1 6) HtSt.init) nan (htSmooth p0))
  let num := maskL q1 (binopS (fun x c => eqv x c) true i1 (lit 0))
  let phase := rmulS F.rad2deg (mapOp (fun x => if isNaN x then lit 0 else x) (mapOp arctan (num / i1)))
  let phase := period (-1) (some (lit 0)) phase
  let delta := (ago (-1) phase - phase).clipLoS (lit 1)
  let alpha := (rdivS fastlimit delta).clipLoS slowlimit
  let m ← ewmDyn { pval := 1, seed := .zero } alpha p0
  let f ← ewmDyn { pval := 0, seed := .zero } (alpha.mulS (lit (1 / 2))) m
  return (period 20 (some nan) m, period 20 (some nan) f)

end Ind
end Bta
