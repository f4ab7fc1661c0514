import Verif.Ind.Ht

/-!
# Memory: which objects an indicator writes to

The other modules treat lines as values.  In the code a `Line` object refers to a pandas Series object which several `Line`
objects can share (`Line(line, name)`, lines.py:434-439; the inputs of an indicator refer to the very Series the user passed),
and some methods write into that Series or rename it.  Here the initialisers which do so are programs over a memory of
Series objects, so that the absence of effects on the user's data and the correctness of the value view can be proved.
-/

set_option linter.unusedSectionVars false
set_option linter.unusedVariables false

namespace Bta.Heap

open Line

variable {V : Type} [PyFloat V]

/-- A pandas Series object: its values and its `name`. (the objects `_series` refers to, lines.py:456-459) -/
structure Cell (V : Type) where
  vals : List V
  name : String
deriving DecidableEq, Repr

/-- A `Line` object (lines.py:456-459): `_series` (which Series object), `_minperiod`, `_name`. -/
structure LObj where
  cell : Nat
  minperiod : Int
  name : String
deriving DecidableEq, Repr

/-- Series objects and Line objects.  Objects are never removed; the position is the identity of the object. (lines.py:421-459) -/
structure Mem (V : Type) where
  cells : List (Cell V)
  env : List LObj
deriving DecidableEq, Repr

/-- What a function passed to `_apply`/`_applymulti` does: the content of the first argument and of the others after the
call (the function may write into the arrays it gets), and the arrays it returns, or an exception. (the functions passed in lines.py:577-605) -/
structure Out (V : Type) where
  self : List V
  args : List (List V)
  res : Except Err (List (List V))

/-- One step of an initialiser.  Variables are positions of Line objects; a step which makes a new object puts it at
the end. (the statements used in the `__init__` methods of obv.py, sar.py, ht_*.py, mama.py, mavp.py) -/
inductive Stmt (V : Type) where
  /-- any operation whose result is a new Series: operators, pandas methods, windows (`result = pd.Series(np.nan, ...);
  result[minidx:] = ...; self._clone(result)`: lines.py:119-132, 140-156, 371-381), `line(val=v)` and `line(None)` (477-488) -/
  | calc (f : List (Line V) → Except Err (Line V)) (args : List Nat)
  /-- `Line(line, name)` (lines.py:434-451): a new Line object on the same Series.  This is what assigning to an output
  (`Lines.__setattr__`, 639-640) and binding an input (inputs.py:52-53, 76-77) do. -/
  | wrap (x : Nat) (name : String)
  /-- `line._period(inc, val=val)` (lines.py:518-532): writes into the Series and changes the Line object -/
  | period (x : Nat) (inc : Int) (val : Option V)
  /-- `line._setval(i0, i1, val)` (lines.py:534-544) -/
  | setval (x : Nat) (i0 i1 : Int) (val : V)
  /-- `line._apply(func, *args, raw=raw)` / `_applymulti` (lines.py:546-603): `func` gets views of the Series of the
  arguments (547-575, not copied) and of the line, the latter copied with `raw` (580-582).  `wr` tells which arguments
  `func` writes to, `k` how many arrays it returns (1 for `_apply`). -/
  | apply (raw : Bool) (g : List V → List (List V) → Out V) (x : Nat) (args : List Nat) (wr : List Bool) (k : Nat)
  /-- reading `line.series` (lines.py:510-512): `rename(self._name, inplace=True)` -/
  | series (x : Nat)

/-- What the steps need of a memory. -/
structure Ops (V σ : Type) where
  /-- content of a variable -/
  get : σ → Nat → Line V
  /-- new object -/
  push : σ → Line V → σ
  /-- new Line object on the same Series -/
  share : σ → Nat → String → σ
  /-- write into the Series of a Line object -/
  write : σ → Nat → List V → σ
  /-- change the minimum period of a Line object -/
  setmp : σ → Nat → Int → σ
  /-- rename the Series of a Line object -/
  rename : σ → Nat → σ

section Steps
variable {σ : Type} (O : Ops V σ)

/-- minimum period of the operation (lines.py:548-552) -/
def applyMp (l : Line V) (ls : List (Line V)) : Int := ls.foldl (fun m a => max m a.minperiod) l.minperiod

/-- the Series after `view[:] = new`, where the view starts at `minidx` (lines.py:580-583: views made by slicing) -/
def patch (old : List V) (minidx : Int) (new : List V) : List V := old.take (pyStart old.length minidx) ++ new

/-- variables written by the function, with their new content (lines.py:546-575) -/
def patches (minidx : Int) : List Nat → List Bool → List (Line V) → List (List V) → List (Nat × List V)
  | x :: xs, w :: ws, l :: ls, n :: ns =>
    (if w then [(x, patch l.series minidx n)] else []) ++ patches minidx xs ws ls ns
  | _, _, _, _ => []

/-- One step: the new state, and the exception if one is raised. (lines.py:108-162, 477-544, 577-605) -/
def step (s : σ) : Stmt V → σ × Option Err
  | .calc f args => match f (args.map (O.get s)) with
    | .ok l => (O.push s l, none)
    | .error e => (s, some e)
  | .wrap x n => (O.share s x n, none)
  | .period x inc val =>
    let l := Line.period inc val (O.get s x)
    ((match val with
      | some _ => O.setmp (O.write s x l.series) x l.minperiod
      | none => O.setmp s x l.minperiod), none)
  | .setval x i0 i1 v => (O.write s x (Line.setval i0 i1 v (O.get s x)).series, none)
  | .apply raw g x args wr k =>
    let l := O.get s x
    let ls := args.map (O.get s)
    let mp := applyMp l ls
    let minidx := mp - 1
    let o := g (pyFrom l.series minidx) (ls.map fun a => pyFrom a.series minidx)
    let ps := (if raw then [] else [(x, patch l.series minidx o.self)]) ++ patches minidx args wr ls o.args
    let s1 := ps.foldl (fun s p => O.write s p.1 p.2) s
    match o.res with
    | .error e => (s1, some e)
    | .ok rs => ((List.range k).foldl (fun s i =>
        O.push s (clone l (setFrom l.series.length nan minidx (rs.getD i [])) mp)) s1, none)
  | .series x => (O.rename s x, none)

/-- An initialiser: steps until the end or the first exception. (an `__init__` method, indicator.py:151-152) -/
def run (s : σ) : List (Stmt V) → σ × Option Err
  | [] => (s, none)
  | t :: ts => match step O s t with
    | (s', none) => run s' ts
    | (s', some e) => (s', some e)

end Steps

/-! ## The memory -/

/-- the content of a Line object (lines.py:456-459) -/
def Mem.get (m : Mem V) (x : Nat) : Line V :=
  match m.env[x]? with
  | some o => ⟨((m.cells[o.cell]?).map Cell.vals).getD [], o.minperiod⟩
  | none => ⟨[], 1⟩

/-- The memory of python: operations on shared objects. (lines.py:421-605) -/
def memOps : Ops V (Mem V) where
  get := Mem.get
  push m l := ⟨m.cells ++ [⟨l.series, ""⟩], m.env ++ [⟨m.cells.length, l.minperiod, ""⟩]⟩
  share m x n := match m.env[x]? with
    | some o => { m with env := m.env ++ [{ o with name := n }] }
    | none => m
  write m x v := match m.env[x]? with
    | some o => { m with cells := m.cells.modify o.cell fun c => { c with vals := v } }
    | none => m
  setmp m x p := { m with env := m.env.modify x fun o => { o with minperiod := p } }
  rename m x := match m.env[x]? with
    | some o => { m with cells := m.cells.modify o.cell fun c => { c with name := o.name } }
    | none => m

/-- The value view: each variable has its own content, nothing is shared. (specification, no code) -/
def valOps : Ops V (List (Line V)) where
  get s x := (s[x]?).getD ⟨[], 1⟩
  push s l := s ++ [l]
  share s x _ := match s[x]? with
    | some l => s ++ [l]
    | none => s
  write s x v := s.modify x fun l => { l with series := v }
  setmp s x p := s.modify x fun l => { l with minperiod := p }
  rename s _ := s

/-! ## Ownership -/

/-- What is known about the Series of a variable: it may belong to the caller, it was made by the program and may be
shared by several variables, or it was made by the program and belongs to this variable only. (specification, no code) -/
inductive Own where
  | caller | shared | own
deriving DecidableEq, Repr

/-- variables a function passed to `_apply` writes to (specification, no code) -/
def written (args : List Nat) (wr : List Bool) : List Nat := ((args.zip wr).filter (·.2)).map (·.1)

/-- The rule for `_apply`: what is written belongs to one variable only, appears once, and is not read under another name. (specification, no code; `raw=True` is lines.py:581-582) -/
def applyOk (nin : Nat) (st : List Own) (raw : Bool) (x : Nat) (args : List Nat) (wr : List Bool) : Bool :=
  let ws := (if raw then [] else [x]) ++ written args wr
  ws.all (fun w => decide (st[w]? = some .own ∧ nin ≤ w)) && decide (((x :: args).filter (· ∈ ws)).Nodup) &&
    (x :: args).all (decide <| · < st.length)

/-- The rule for one step (`nin` is the number of Line objects of the caller). (specification, no code) -/
def checkStep (nin : Nat) (st : List Own) : Stmt V → Option (List Own)
  | .calc _ args => if args.all (decide <| · < st.length) then some (st ++ [.own]) else none
  | .wrap x _ => match st[x]? with
    | none => none
    | some .caller => some (st ++ [.caller])
    | some _ => some (st.set x .shared ++ [.shared])
  | .period x _ (some _) => if st[x]? = some .own ∧ nin ≤ x then some st else none
  | .period x _ none => if nin ≤ x ∧ x < st.length then some st else none
  | .setval x _ _ _ => if st[x]? = some .own ∧ nin ≤ x then some st else none
  | .apply raw _ x args wr k => if applyOk nin st raw x args wr then some (st ++ List.replicate k .own) else none
  | .series x => match st[x]? with
    | some .shared => some st
    | some .own => some st
    | _ => none

/-- A program which follows the rules. (specification, no code) -/
def check (nin : Nat) : List Own → List (Stmt V) → Option (List Own)
  | st, [] => some st
  | st, t :: ts => (checkStep nin st t).bind fun st' => check nin st' ts

/-! ## The initialisers of the library which write in place

The variables of a program are the Line objects in the order they are made: first those the caller passes, then the
inputs (`Line(val, name)`, inputs.py:52-53, 76-77), then the others.  Operations which only make new objects are taken
together in one `calc`. -/

section Progs

/-- operation on one line (lines.py:137-162) -/
def calc1 (f : Line V → Line V) (x : Nat) : Stmt V := .calc (fun | [a] => .ok (f a) | _ => .error .typeError) [x]
/-- operation on two lines (lines.py:108-134) -/
def calc2 (f : Line V → Line V → Line V) (x y : Nat) : Stmt V :=
  .calc (fun | [a, b] => .ok (f a b) | _ => .error .typeError) [x, y]

/-- `line(val=v)` (lines.py:477-488): same index and minimum period, filled with `v` -/
def fillWith (v : V) (a : Line V) : Line V := ⟨List.replicate a.series.length v, a.minperiod⟩

/-- `obv.__init__` (obv.py:42-49) on inputs close, volume -/
def obvProg (talib : Bool) (q : Nat) : List (Stmt V) :=
  [.wrap 0 "close", .wrap 1 "volume", calc1 (diff q) 2] ++
  (if talib then [.period 4 (-1) (some (lit 1))] else []) ++
  [calc2 (fun c1 v => (v * mapOp signV c1).cumsum) 4 3, .wrap 5 "obv"]

/-- `_sarize` with its buffer (sar.py:42-84, sarext.py:50-106): `sarbuf[i]` is written for `i` from 1 on and `sarbuf`
is returned; an IndexError is raised before anything is written -/
def sarBuf (f : List (V × V) → Except Err (List V)) (h : List V) : List (List V) → Out V
  | [l, buf] => match f (List.zip h l) with
    | .ok r => ⟨h, [l, buf.take 1 ++ r.drop 1], .ok [buf.take 1 ++ r.drop 1]⟩
    | .error e => ⟨h, [l, buf], .error e⟩
  | a => ⟨h, a, .error .typeError⟩

/-- `sar.__init__` / `sarext.__init__` (sar.py:37-40, sarext.py:45-48) on inputs high, low -/
def sarProg (f : List (V × V) → Except Err (List V)) : List (Stmt V) :=
  [.wrap 0 "high", .wrap 1 "low", calc1 (fillWith nan) 2,
   .apply true (sarBuf f) 2 [3, 4] [false, true] 1, .period 5 1 none, .wrap 5 "sar"]

/-- `p0smooth` before `_period` (ht_dcperiod.py:45) -/
def htPre (p0 : Line V) : Line V :=
  (((Line.rmulS (lit 4) p0 + Line.rmulS (lit 3) (ago (-1) p0)) + Line.rmulS (lit 2) (ago (-2) p0)) + ago (-3) p0).divS (lit 10)

/-- `p0` (ht_dcperiod.py:42): with one input the line itself, else a new line; the position of `p0` is 1 or 4 -/
def htHead (two : Bool) : List (Stmt V) :=
  if two then [.wrap 0 "high", .wrap 1 "low", calc2 Ind.htMid 2 3] else [.wrap 0 "high"]

/-- position of `p0` (ht_dcperiod.py:42) -/
def htP0 (two : Bool) : Nat := if two then 4 else 1

/-- a `_periodize` with one buffer (ht_dcperiod.py:59-118, ht_dcphase.py): `price[0:start] = 0.0`, `buf[i] = ...` from
`start` on, `return buf` -/
def htOut1 {σ : Type} (start : Nat) (stepf : List V → Nat → σ → σ) (out : σ → V) (s0 : σ) (price : List V) :
    List (List V) → Out V
  | [buf] =>
    let p := Ind.htZero start price
    let b := buf.take start ++ Ind.htGo (stepf p) out (price.length - start) start s0
    ⟨p, [b], .ok [b]⟩
  | a => ⟨price, a, .error .typeError⟩

/-- a `_periodize` with two buffers (ht_phasor.py:63-115, ht_sine.py, mama.py) -/
def htOut2 {σ : Type} (start : Nat) (stepf : List V → Nat → σ → σ) (out out' : σ → V) (s0 : σ) (price : List V) :
    List (List V) → Out V
  | [b1, b2] =>
    let p := Ind.htZero start price
    let c1 := b1.take start ++ Ind.htGo (stepf p) out (price.length - start) start s0
    let c2 := b2.take start ++ Ind.htGo (stepf p) out' (price.length - start) start s0
    ⟨p, [c1, c2], .ok [c1, c2]⟩
  | a => ⟨price, a, .error .typeError⟩

/-- a `_periodize` with `p0` and one buffer (ht_trendline.py:63-134, ht_trendmode.py:65-197) -/
def htOut3 {σ : Type} (start : Nat) (stepf : List V → List V → Nat → σ → σ) (out : σ → V) (s0 : σ) (price : List V) :
    List (List V) → Out V
  | [p0, buf] =>
    let p := Ind.htZero start price
    let b := buf.take start ++ Ind.htGo (stepf p p0) out (price.length - start) start s0
    ⟨p, [p0, b], .ok [b]⟩
  | a => ⟨price, a, .error .typeError⟩

/-- `ht_dcperiod.__init__` (ht_dcperiod.py:40-53), `ht_dcphase.__init__` (ht_dcphase.py:41-54) -/
def htProg1 {σ : Type} (two : Bool) (start : Nat) (stepf : List V → Nat → σ → σ) (out : σ → V) (s0 : σ) (inc : Int)
    (name : String) : List (Stmt V) :=
  let p := htP0 two
  htHead two ++ [calc1 htPre p, .period (p + 1) 3 none, calc1 (fillWith (lit 0)) (p + 1),
    .apply true (htOut1 start stepf out s0) (p + 1) [p + 2] [true] 1, .period (p + 3) inc (some nan), .wrap (p + 3) name]

/-- `ht_phasor.__init__` (ht_phasor.py:40-57), `ht_sine.__init__` (ht_sine.py:42-57) -/
def htProg2 {σ : Type} (two : Bool) (start : Nat) (stepf : List V → Nat → σ → σ) (out out' : σ → V) (s0 : σ) (inc : Int)
    (name name' : String) : List (Stmt V) :=
  let p := htP0 two
  htHead two ++ [calc1 htPre p, .period (p + 1) 3 none, calc1 (fillWith (lit 0)) (p + 1), calc1 (fillWith (lit 0)) (p + 1),
    .apply true (htOut2 start stepf out out' s0) (p + 1) [p + 2, p + 3] [true, true] 2,
    .period (p + 4) inc (some nan), .wrap (p + 4) name, .period (p + 5) inc (some nan), .wrap (p + 5) name']

/-- `ht_trendline.__init__` (ht_trendline.py:40-57; `raw=True`), `ht_trendmode.__init__` (ht_trendmode.py:41-59; not raw,
so that `price` is a view of `p0smooth` and the function writes into it) -/
def htProg3 {σ : Type} (raw two : Bool) (start : Nat) (stepf : List V → List V → Nat → σ → σ) (out : σ → V) (s0 : σ)
    (inc : Int) (name : String) : List (Stmt V) :=
  let p := htP0 two
  htHead two ++ [calc1 htPre p, .period (p + 1) 3 none, calc1 (fillWith (lit 0)) (p + 1),
    .apply raw (htOut3 start stepf out s0) (p + 1) [p, p + 2] [false, true] 1, .period (p + 3) inc (some nan),
    .wrap (p + 3) name]

/-- `phase` (mama.py:66-67) -/
def mamaPhase (F : HtFns V) (arctan : V → V) (i1 q1 : Line V) : Line V :=
  Line.rmulS F.rad2deg (mapOp (fun x => if isNaN x then lit 0 else x)
    (mapOp arctan (Ind.maskL q1 (binopS (fun x c => eqv x c) true i1 (lit 0)) / i1)))

/-- `alpha` (mama.py:75-76) -/
def mamaAlpha (fastlimit slowlimit : V) (phase : Line V) : Line V :=
  (Line.rdivS fastlimit ((ago (-1) phase - phase).clipLoS (lit 1))).clipLoS slowlimit

/-- `mama.__init__` from line 63 on (mama.py:63-89).  The trailers `_ewm` works on are copies (lines.py:292), so `_mean`
is a `calc`. -/
def mamaRest (F : HtFns V) (arctan : V → V) (fastlimit slowlimit : V) (p : Nat) : List (Stmt V) :=
  [.period (p + 5) 6 none, calc2 (mamaPhase F arctan) (p + 4) (p + 5), .period (p + 6) (-1) (some (lit 0)),
    calc1 (mamaAlpha fastlimit slowlimit) (p + 6),
    .calc (fun | [alpha, p0] => ewmDyn { pval := 1, seed := .zero } alpha p0 | _ => .error .typeError) [p + 7, p],
    .calc (fun | [alpha, m] => ewmDyn { pval := 0, seed := .zero } (alpha.mulS (lit (1 / 2))) m | _ => .error .typeError)
      [p + 7, p + 8],
    .period (p + 8) 20 (some nan), .period (p + 9) 20 (some nan), .wrap (p + 8) "mama", .wrap (p + 9) "fama"]

/-- `mama.__init__` (mama.py:46-89) -/
def mamaProg (F : HtFns V) (arctan : V → V) (fastlimit slowlimit : V) (two : Bool) : List (Stmt V) :=
  let p := htP0 two
  htHead two ++ ([calc1 htPre p, .period (p + 1) 3 none, calc1 (fillWith (lit 0)) (p + 1), calc1 (fillWith (lit 0)) (p + 1),
    .apply true (htOut2 6 (Ind.htStep F) (fun s => Ind.htAt s.i1 6) (fun s => Ind.htAt s.q1 6) Ind.HtSt.init) (p + 1)
      [p + 2, p + 3] [true, true] 2] ++ mamaRest F arctan fastlimit slowlimit p)

/-- `_mavp` (mavp.py:10-16): overwrites the array it gets; `periods` from the minimum period on -/
def mavpOut (uper : List Nat) (per : Nat → List Nat) (closes : List V) (mas : List (List V)) : Out V :=
  let r := (List.range closes.length).map fun i =>
    (((mas[uper.idxOf (((per closes.length)[i]?).getD 0)]?).bind fun m => m[i]?).getD nan)
  ⟨r, mas, .ok [r]⟩

/-- `mavp.__init__` (mavp.py:47-61): `close` is the caller's Series, its Line object is the indicator's own -/
def mavpProg (ma : Nat → Line V → Except Err (Line V)) (uper : List Nat) (per : Nat → List Nat) (top : Int) : List (Stmt V) :=
  [.wrap 0 "close"] ++ uper.map (fun q => .calc (fun | [a] => ma q a | _ => .error .typeError) [1]) ++
  [.period 1 (top - 1) none,
   .apply true (mavpOut uper per) 1 ((List.range uper.length).map (· + 2)) (List.replicate uper.length false) 1,
   .wrap (uper.length + 2) "mavp"]

end Progs

end Bta.Heap
