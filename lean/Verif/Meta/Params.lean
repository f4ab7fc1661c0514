import Verif.Line
import Verif.Meta.Py

/-!
# Parameters: `btalib/meta/params.py`
-/

namespace Bta.Meta

open Py

/-- Python values as far as params.py looks into them: tuples are told apart from the rest, and so are `True`/`False`.
`num` is a float, `cls` a class of the library (given as `_ma`, ...), `obj` any other object, `info` is a dictionary
`{'doc': .., 'required': ..}` (params.py:115). -/
inductive PyVal where
  | none
  | bool (b : Bool)
  | str (s : String)
  | int (i : Int)
  | num (q : ℚ)
  | obj (id : Nat)
  | cls (name : String)
  | tup (l : List PyVal)
  | info (doc required : PyVal)

/-- `x or y`: truth of a python value.  Objects (moving averages, functions) are true. (params.py:109, 112) -/
def PyVal.truthy : PyVal → Bool
  | .none => false
  | .bool b => b
  | .str s => !(s == "")
  | .int i => !(i == 0)
  | .num q => !(q == 0)
  | .obj _ => true
  | .cls _ => true
  | .tup l => !l.isEmpty
  | .info _ _ => true

/-- `isinstance(x, tuple)` (params.py:101) -/
def PyVal.isTup : PyVal → Bool
  | .tup _ => true
  | _ => false

/-- What is remembered of a parameter besides its default (params.py:115). -/
structure PInfo where
  doc : PyVal
  required : PyVal

/-- The state of the loop in `_generate`: `params` and `pinfo`. (params.py:78-79) -/
structure PState where
  params : Dict String PyVal
  info : Dict String PInfo

/-- One definition `pname, pval` (params.py:100-115). `pbdocs` is the joined information of the bases: note that line 112
looks up the *parameter called* `doc` in it, not the documentation of `pname`. -/
def genOne (pbdocs : Dict String PInfo) (st : PState) (pname : String) (pval : PyVal) : Except Err PState :=
  -- 100-101
  let vals := match pval with
    | .tup l => l
    | v => [v]
  -- 103
  match vals with
  | [] => .error .valueError
  | pdefault :: pothers =>
    -- 104-108
    let pdoc : PyVal := pothers.headD (.str "")
    let preq : PyVal := (pothers.drop 1).headD (.bool false)
    let dr : PyVal × PyVal := match pdoc with
      | .bool b => (if preq.truthy then preq else .str "", .bool b)
      | d => (d, preq)
    -- 111-112
    let pdoc : PyVal := if (get? st.params pname).isSome then
        (if dr.1.truthy then dr.1 else
          match get? pbdocs "doc" with
          | some i => .info i.doc i.required
          | none => .str "")
      else dr.1
    -- 114-115
    .ok ⟨set st.params pname pdefault, set st.info pname ⟨pdoc, dr.2⟩⟩

/-- The inner loop over one dictionary (params.py:100). -/
def genDict (pbdocs : Dict String PInfo) : PState → Dict String PyVal → Except Err PState
  | st, [] => .ok st
  | st, (n, v) :: d => do
    let st ← genOne pbdocs st n v
    genDict pbdocs st d

/-- The outer loop (params.py:95). -/
def genDicts (pbdocs : Dict String PInfo) : PState → List (Dict String PyVal) → Except Err PState
  | st, [] => .ok st
  | st, d :: ds => do
    let st ← genDict pbdocs st d
    genDicts pbdocs st ds

/-- A `params` attribute as written in a class body: a dictionary or a sequence of `(name, default, ...)` (params.py:89-97;
the name and the rest are split here). -/
inductive PDecl where
  | dict (d : Dict String PyVal)
  | seq (l : List (String × List PyVal))

/-- params.py:96-97 -/
def PDecl.toDict : PDecl → Dict String PyVal
  | .dict d => d
  | .seq l => update [] (l.map (fun p => (p.1, PyVal.tup p.2)))

/-- A class after creation, as far as parameters are concerned: `cls.params` and `_CLSPINFO[cls]`. (params.py:79, 117) -/
abbrev PCls := PState

/-- `_generate` (params.py:76-122) for a class with the given bases. -/
def genParams (bases : List PCls) (own : PDecl) : Except Err PCls :=
  let pbdocs := update [] (bases.flatMap (fun b => b.info))
  genDicts pbdocs ⟨[], []⟩ (bases.map (fun b => b.params) ++ [own.toDict])

/-- `_from_kwargs` (params.py:125-132): the attributes of the Params instance (slots with the defaults, updated with what
was passed) and the keywords which remain. -/
def fromKwargs (cls : PCls) (kw : Dict String PyVal) : Dict String PyVal × Dict String PyVal :=
  let given := kw.filter (fun p => (get? cls.params p.1).isSome)
  let rest := kw.filter (fun p => !(get? cls.params p.1).isSome)
  (update (update [] cls.params) given, rest)

/-- A hierarchy with single inheritance: the `params` of the classes, the root first. (params.py:76-122 for each class) -/
def genChain : List PDecl → Except Err PCls
  | decls => decls.foldl (fun acc d => do
      let b ← acc
      genParams [b] d) (.ok ⟨[], []⟩)

end Bta.Meta
