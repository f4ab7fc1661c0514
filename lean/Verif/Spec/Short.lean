import Verif.Spec.Need

/-!
# How many bars each indicator needs not to raise an exception
-/

namespace Bta

variable {V : Type}

/-- No seed is stored with `SEED_NONE` and `SEED_ZFILL`; with the others (the default, `SEED_AVG`, and `SEED_SUM`, `SEED_LAST`,
`SEED_ZERO`) one is. -/
def Spec.noSeed : Line.Seed → Bool
  | .none => true
  | .zfill => true
  | _ => false

/-- The fewest bars for which an average over `p` bars of a line with minimum period `m` does not raise: those of the seed
(with ta-lib compatibility `o` bars instead of `p`); windows and exponential averages without seed never raise.  `never` if no
number of bars is enough: so for `kama` of a line with a minimum period above 1 (C19). -/
def Spec.avgBars (never : ℕ) : Avg V → ℕ → ℕ → ℕ
  | .ema s o, p, m => if Spec.noSeed s then 0 else m - 1 + (if o = 0 then p else o)
  | .smma s, p, m => if Spec.noSeed s then 0 else m - 1 + p
  | .kama _ _ pv _, p, m => if m = 1 then max p (p - 1 + pv) else never
  | .smacc _ early _, p, m => m - 1 + p - (if early then 1 else 0)
  | .t3 _, p, m => m - 1 + p + 5 * (p - 1)
  | .dema A, p, m => max (avgBars never A p m) (avgBars never A p (m + Spec.more A p))
  | .gdema A _, p, m => max (avgBars never A p m) (avgBars never A p (m + Spec.more A p))
  | .tema A, p, m => max (avgBars never A p m) (max (avgBars never A p (m + Spec.more A p)) (avgBars never A p (m + 2 * Spec.more A p)))
  | .trix A, p, m => max (avgBars never A p m) (max (avgBars never A p (m + Spec.more A p)) (avgBars never A p (m + 2 * Spec.more A p)))
  | .t3gd A _, p, m =>
    let two := fun m => max (avgBars never A p m) (avgBars never A p (m + Spec.more A p))
    max (two m) (max (two (m + 2 * Spec.more A p)) (two (m + 4 * Spec.more A p)))
  | _, _, _ => 0

/-- The calls which have other reasons to raise: `crossover` (C37), the four Hilbert indicators which look back a calculated
number of bars (C108). -/
def Spec.OtherReasons : Call V → Prop
  | .crossover _ => True
  | .htDcphase _ => True
  | .htSine _ => True
  | .htTrendline _ => True
  | .htTrendmode _ => True
  | _ => False

/-- The fewest bars for which a call does not raise, its inputs having the minimum periods `m 0`, `m 1`, ...; 0 if it never
does, `never` if no number of bars is enough. -/
def Spec.bars (never : ℕ) (m : ℕ → ℕ) : Call V → ℕ
  | .avg a p => Spec.avgBars never a p (m 0)
  | .macd mf ma ms pf ps pg => max (Spec.avgBars never mf pf (m 0)) (max (Spec.avgBars never ma ps (m 0))
      (Spec.avgBars never ms pg (m 0 + max (Spec.more mf pf) (Spec.more ma ps))))
  | .apo ma pf ps => max (Spec.avgBars never ma pf (m 0)) (Spec.avgBars never ma ps (m 0))
  | .ppo _ ma ms pf ps pg => max (max (Spec.avgBars never ma pf (m 0)) (Spec.avgBars never ma ps (m 0)))
      (Spec.avgBars never ms pg (m 0 + max (Spec.more ma pf) (Spec.more ma ps)))
  | .rsi ma lookback p => Spec.avgBars never ma p (m 0 + lookback)
  | .cmo ma p => Spec.avgBars never ma p (m 0 + 1)
  | .cci ma _ p => Spec.avgBars never ma p (Spec.max3 m)
  | .bbands _ ma _ p => Spec.avgBars never ma p (m 0)
  | .stochf ma p pf => Spec.avgBars never ma pf (Spec.kBars m p)
  | .stochastic ma ms p pf ps =>
    max (Spec.avgBars never ma pf (Spec.kBars m p)) (Spec.avgBars never ms ps (Spec.kBars m p + Spec.more ma pf))
  | .stochrsi p _ _ => m 0 + p
  | .stochrsiD ma p ph pf _ => max (m 0 + p) (Spec.avgBars never ma pf (m 0 + p + (ph - 1)))
  | .atr ma q p => Spec.avgBars never ma p (Spec.trBars m q)
  | .natr ma q p => Spec.avgBars never ma p (Spec.trBars m q)
  | .adosc ma pf ps => max (Spec.avgBars never ma pf (Spec.max4 m)) (Spec.avgBars never ma ps (Spec.max4 m))
  | .plusDm sm ps q => Spec.avgBars never sm ps (Spec.max2 m + q)
  | .minusDm sm ps q => Spec.avgBars never sm ps (Spec.max2 m + q)
  | .dm sm ps q => Spec.avgBars never sm ps (Spec.max2 m + q)
  | .plusDi sm ps q _ => max (Spec.avgBars never sm ps (Spec.max2 m + q)) (Spec.avgBars never sm ps (Spec.trBars m q))
  | .minusDi sm ps q _ => max (Spec.avgBars never sm ps (Spec.max2 m + q)) (Spec.avgBars never sm ps (Spec.trBars m q))
  | .di sm ps q _ => max (Spec.avgBars never sm ps (Spec.max2 m + q)) (Spec.avgBars never sm ps (Spec.trBars m q))
  | .dx sm ps q _ => max (Spec.avgBars never sm ps (Spec.max2 m + q)) (Spec.avgBars never sm ps (Spec.trBars m q))
  | .adx sm ma ps q _ p => max (max (Spec.avgBars never sm ps (Spec.max2 m + q)) (Spec.avgBars never sm ps (Spec.trBars m q)))
      (Spec.avgBars never ma p (Spec.diBars m q (Spec.more sm ps)))
  | .adxr sm ma ps q _ p _ => max (max (Spec.avgBars never sm ps (Spec.max2 m + q)) (Spec.avgBars never sm ps (Spec.trBars m q)))
      (Spec.avgBars never ma p (Spec.diBars m q (Spec.more sm ps)))
  | .sar _ _ => Spec.max2 m + 1
  | .sarext _ => Spec.max2 m + 1
  | .mama _ _ _ _ => if m 0 = 1 then 12 else never
  | _ => 0

end Bta
