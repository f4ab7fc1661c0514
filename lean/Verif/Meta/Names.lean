import Verif.Line

/-!
# Lines, the Series behind them and their names

A line refers to a pandas Series, which may be the Series of the caller or that of another line.  Reading `line.series` gives the
Series itself after having renamed it in place.
-/

namespace Bta.Names

/-- A pandas Series: its name (`none` is python's `None`) and its values. (lines.py:512) -/
structure SeriesObj (V : Type) where
  name : Option String
  values : List V

/-- A line: the Series it refers to and its name. (lines.py:423-453) -/
structure LineRef where
  ref : Nat
  name : String
deriving DecidableEq, Repr

/-- All the Series and lines there are (the lines of results, of their inputs, of intermediate results), in the order of creation, and
the frames remembered by the indicators. (linesholder.py:47-48) -/
structure State (V : Type) where
  store : List (SeriesObj V)
  lines : List LineRef
  frames : List (Nat × List (String × List V))

/-- What a program can do to lines, as far as it bears on names. -/
inductive Op (V : Type) where
  /-- `Line(series, name)`: an input of a call which is given a Series -/
  | input (s : Nat) (name : String)
  /-- `Line(line, name)`: an input of a call which is given a line or an indicator; an assignment to an output -/
  | share (l : Nat) (name : String)
  /-- the result of an operation: a new Series, and a line without name -/
  | fresh (s : SeriesObj V)
  /-- `line.series`, `ind.series[item]`, `ind.series.attr` -/
  | read (l : Nat)
  /-- iteration over `ind.series` for an indicator with the given lines -/
  | iter (ls : List Nat)
  /-- `ind.df` for the indicator with the given lines -/
  | df (ind : Nat) (ls : List Nat)

variable {V : Type}

/-- `series.rename(name, inplace=True)` (lines.py:512) -/
def rename (st : List (SeriesObj V)) (r : Nat) (n : String) : List (SeriesObj V) :=
  st.modify r (fun s => { s with name := some n })

/-- `Line.series` (lines.py:510-512) -/
def State.read (st : State V) (l : Nat) : State V :=
  match st.lines[l]? with
  | some x => { st with store := rename st.store x.ref x.name }
  | none => st

/-- the values behind a line (lines.py:512) -/
def State.values (st : State V) (l : Nat) : List V :=
  match st.lines[l]? with
  | some x => ((st.store[x.ref]?).map SeriesObj.values).getD []
  | none => []

/-- the name of a line (lines.py:449) -/
def State.lineName (st : State V) (l : Nat) : String := ((st.lines[l]?).map LineRef.name).getD ""

/-- One step. -/
def State.step (st : State V) : Op V → State V
  -- lines.py:435-437, 449
  | .input s n => { st with lines := st.lines ++ [⟨s, n⟩] }
  -- lines.py:421-434, 449, 640; inputs.py:50-51
  | .share l n => match st.lines[l]? with
    | some x => { st with lines := st.lines ++ [⟨x.ref, n⟩] }
    | none => st
  -- lines.py:496-499: the name of a clone is ''
  | .fresh s => { st with store := st.store ++ [s], lines := st.lines ++ [⟨st.store.length, ""⟩] }
  -- lines.py:510-512, linesholder.py:20-24, 35-36
  | .read l => st.read l
  -- linesholder.py:32-33
  | .iter ls => ls.foldl State.read st
  -- linesholder.py:90-95: the Series are read one after the other, under the keys (the names of the lines), and copied
  | .df i ls => match st.frames.find? (fun f => f.1 == i) with
    | some _ => st
    | none =>
      let st' := ls.foldl State.read st
      { st' with frames := st'.frames ++ [(i, ls.map (fun l => (st'.lineName l, st'.values l)))] }

/-- A history. -/
def State.run (st : State V) (ops : List (Op V)) : State V := ops.foldl State.step st

/-- `ind.df`, as it is given out after a step `df`. (linesholder.py:95) -/
def State.frame (st : State V) (i : Nat) : Option (List (String × List V)) := (st.frames.find? (fun f => f.1 == i)).map (·.2)

end Bta.Names
