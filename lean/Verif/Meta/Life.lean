/-!
# What stays in memory: the tables of `btalib/meta/lines.py:606-640` and the call stack of `btalib/indicator.py`

Objects have addresses and refer to other objects; an object is kept as long as it can be reached from a global table, from
a running call or from a variable of the user.  Simplifications: parameters, names and the frames cached by `df` are left out;
the initialiser of a running call holds the results of the calls it made until it ends.
-/

namespace Bta.Life

/-- address of an object -/
abbrev Addr := Nat

/-- the objects which matter: pandas `Series` with so many bars, `Line` (lines.py:456-459), `Lines` with what its slots hold
(lines.py:614-640), and indicators with their inputs, their outputs and what the initialiser stored as attribute
(indicator.py:110-130) -/
inductive Obj where
  | series (bars : Nat)
  | line (s : Addr)
  | lines (slots : List (Nat × Addr))
  | ind (inputs outputs : Addr) (attrs : List Addr)
deriving DecidableEq, Repr

/-- what an object refers to -/
def Obj.refs : Obj → List Addr
  | .series _ => []
  | .line s => [s]
  | .lines sl => sl.map Prod.snd
  | .ind i o attrs => i :: o :: attrs

/-- all objects, the keys of `metadata.minperiods` and `metadata.minperiod` (lines.py:610-611), `metadata.callstack`
(indicator.py:19), the running calls with their results so far (innermost first), and the variables of the user -/
structure World where
  heap : List Obj
  table : List Addr
  stack : List Addr
  frames : List (Addr × List Addr)
  vars : List Addr
deriving DecidableEq, Repr

/-- at the start (lines.py:610-611, indicator.py:19) -/
def World.start : World := ⟨[], [], [], [], []⟩

/-- What can happen.  `series n`: the user makes a series of `n` bars.  `call args`: an indicator is called, by the user or by
the initialiser which is running.  `assign k n`: the initialiser sets its `k`-th output to `n` new bars.  `store i`: it keeps the
`i`-th result it got as attribute.  `ret`: it ends.  `raise`: it ends with an exception.  `drop i`: the user deletes a
variable. -/
inductive Ev where
  | series (bars : Nat)
  | call (args : List Addr)
  | assign (k bars : Nat)
  | store (i : Nat)
  | ret
  | raise
  | drop (i : Nat)
deriving DecidableEq, Repr

/-- `Line(val)` (lines.py:408-449): the series of a series, of a line, or of the first output of an indicator -/
def World.seriesOf (w : World) (a : Addr) : Option Addr :=
  match w.heap[a]? with
  | some (.series _) => some a
  | some (.line s) => some s
  | some (.ind _ o _) => match w.heap[o]? with
    | some (.lines (x :: _)) => match w.heap[x.2]? with
      | some (.line s) => some s
      | _ => none
    | _ => none
  | _ => none

/-- slots of the inputs: the `k`-th refers to the `k`-th of the new lines, which are allocated from address `b` on
(inputs.py:48-49, lines.py:632-640) -/
def slotsFrom (b : Addr) (n : Nat) : List (Nat × Addr) := (List.range n).map fun k => (k, b + k)

/-- `__call__` up to the execution of the initialisers (indicator.py:79-148).  The object and its outputs are created, then the
inputs; both `Lines` are entered into the tables (lines.py:629-631).  If an argument is not understood, the call ends there
with an exception (inputs.py:39-76). -/
def World.call (w : World) (args : List Addr) : World :=
  let a := w.heap.length
  match args.mapM w.seriesOf with
  | some ss => { w with
      heap := w.heap ++ ([.ind (a + 2) (a + 1) [], .lines [], .lines (slotsFrom (a + 3) ss.length)] ++ ss.map .line)
      table := (a + 2) :: (a + 1) :: w.table
      stack := a :: w.stack
      frames := (a, []) :: w.frames }
  | none => { w with
      heap := w.heap ++ [.ind (a + 1) (a + 1) [], .lines []]
      table := (a + 1) :: w.table }

/-- `self.o.name = ...` in an initialiser (lines.py:639-640): a new line with new bars replaces what was in the slot -/
def World.assign (w : World) (k n : Nat) : World :=
  match w.frames with
  | [] => w
  | (s, _) :: _ => match w.heap[s]? with
    | some (.ind _ o _) => match w.heap[o]? with
      | some (.lines sl) => { w with
          heap := (w.heap.set o (.lines (sl.filter (fun x => x.1 != k) ++ [(k, w.heap.length + 1)]))) ++
            [.series n, .line w.heap.length] }
      | _ => w
    | _ => w

/-- `self.name = indicator` in an initialiser -/
def World.store (w : World) (i : Nat) : World :=
  match w.frames with
  | [] => w
  | (s, held) :: _ => match held[i]?, w.heap[s]? with
    | some r, some (.ind a o attrs) => { w with heap := w.heap.set s (.ind a o (r :: attrs)) }
    | _, _ => w

/-- end of a call (indicator.py:173-181): `metadata.callstack.pop()`; the indicator is given to the caller -/
def World.ret (w : World) : World :=
  match w.frames with
  | [] => w
  | [(s, _)] => { w with stack := w.stack.tail, frames := [], vars := s :: w.vars }
  | (s, _) :: (t, held) :: fs => { w with stack := w.stack.tail, frames := (t, s :: held) :: fs }

/-- an exception leaves the call: there is no `pop` (indicator.py:148-173) -/
def World.raise (w : World) : World := { w with frames := w.frames.tail }

/-- one step -/
def World.step (w : World) : Ev → World
  | .series n => { w with heap := w.heap ++ [.series n], vars := w.heap.length :: w.vars }
  | .call args => w.call args
  | .assign k n => w.assign k n
  | .store i => w.store i
  | .ret => w.ret
  | .raise => w.raise
  | .drop i => { w with vars := w.vars.eraseIdx i }

/-- a history -/
def run (h : List Ev) : World := h.foldl World.step World.start

end Bta.Life
