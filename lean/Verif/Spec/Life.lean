import Verif.Meta.Life

/-!
# What is kept in memory
-/

namespace Bta.Life

/-- An object can be reached from some objects along references. -/
inductive Reach (heap : List Obj) (roots : List Addr) : Addr → Prop
  | root {a : Addr} : a ∈ roots → Reach heap roots a
  | step {a b : Addr} {o : Obj} : Reach heap roots a → heap[a]? = some o → b ∈ o.refs → Reach heap roots b

/-- everything from which python starts when it looks for garbage -/
def World.roots (w : World) : List Addr :=
  w.table ++ w.stack ++ (w.frames.flatMap fun f => f.1 :: f.2) ++ w.vars

/-- The object is kept. -/
def World.Kept (w : World) (a : Addr) : Prop := Reach w.heap w.roots a

/-- The user can still reach the object. -/
def World.Held (w : World) (a : Addr) : Prop := Reach w.heap w.vars a

/-- calls of indicators in a history -/
def Ev.isCall : Ev → Bool
  | .call _ => true
  | _ => false

end Bta.Life
