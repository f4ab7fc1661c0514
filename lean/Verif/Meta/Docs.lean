import Verif.Meta.Decls
import Verif.Meta.Params
import Verif.Meta.Registry

/-!
# Help texts: `btalib/meta/docs.py`

`Docs` is what the module takes from python: `textwrap` (its chunks, the place where a long word is cut, tabulators),
`textwrap.dedent`, what counts as blank and as end of line, and `str.format` of values which are neither strings nor classes
of the library.  The loop of `textwrap.wrap` is written out.
-/

namespace Bta.Meta

open Py

/-- A text: its characters. (docs.py:41) -/
abbrev Text := List Char

/-- What docs.py takes from python. -/
structure Docs where
  /-- `c.isspace()` -/
  blank : Char → Bool
  /-- the ends of lines of `splitlines` -/
  brk : Char → Bool
  /-- `text.expandtabs(8)` -/
  tabs : Text → Text
  /-- the chunks of `TextWrapper._split` -/
  split : Text → List Text
  /-- where `TextWrapper._handle_long_word` cuts a word when there is room for the given number of characters -/
  cut : Nat → Text → Nat
  /-- `textwrap.dedent` -/
  dedent : Text → Text
  /-- `"{}".format(value)` -/
  fmt : PyVal → Text

namespace Docs

variable (D : Docs)

/-! ## `textwrap.wrap` (of python's library, `TextWrapper._wrap_chunks`), without indentation: docs.py:19-26 -/

/-- The chunks which fit in the rest of a line of the given width, and the others. (docs.py:19-26, stdlib) -/
def takeFit (width : Nat) : Nat → List Text → List Text × List Text
  | _, [] => ([], [])
  | n, c :: cs =>
    if n + c.length ≤ width then
      let r := takeFit width (n + c.length) cs
      (c :: r.1, r.2)
    else ([], c :: cs)

/-- A blank chunk does not open a line, except for the first line. (docs.py:19-26, stdlib) -/
def openLine (first : Bool) : List Text → List Text
  | [] => []
  | c :: t => if !first && c.all D.blank then t else c :: t

/-- A word which is longer than a line is cut. (docs.py:19-26, stdlib) -/
def cutLong (width : Nat) (cur : List Text) : List Text → List Text × List Text
  | [] => (cur, [])
  | c :: t =>
    if width < c.length then (cur ++ [c.take (D.cut (width - cur.flatten.length) c)], c.drop (D.cut (width - cur.flatten.length) c) :: t)
    else (cur, c :: t)

/-- A blank chunk does not close a line. (docs.py:19-26, stdlib) -/
def closeLine (cur : List Text) : List Text :=
  match cur.getLast? with
  | some c => if c.all D.blank then cur.dropLast else cur
  | none => cur

/-- One line: the chunks on it and the chunks which are left. (docs.py:19-26, stdlib) -/
def oneLine (width : Nat) (first : Bool) (cs : List Text) : List Text × List Text :=
  let r := takeFit width 0 (D.openLine first cs)
  let r2 := D.cutLong width r.1 r.2
  (D.closeLine r2.1, r2.2)

/-- The loop over the lines. (docs.py:19-26, stdlib) -/
def wrapLoop (width : Nat) : Nat → Bool → List Text → List Text
  | 0, _, _ => []
  | _ + 1, _, [] => []
  | f + 1, first, c :: cs =>
    let r := D.oneLine width first (c :: cs)
    if r.1.isEmpty then wrapLoop width f first r.2 else r.1.flatten :: wrapLoop width f false r.2

/-- `textwrap.wrap(line, width=width, replace_whitespace=False)`, `initial_indent` and `subsequent_indent` empty.  Each turn of
the loop uses up a chunk or a part of one, so the number of turns is bounded. (docs.py:19-26) -/
def wrap (width : Nat) (line : Text) : List Text :=
  let cs := D.split (D.tabs line)
  D.wrapLoop width (cs.flatten.length + cs.length + 1) true cs

/-! ## docs.py -/

/-- `txt.splitlines()`; `\r\n` gives an empty line here, which `textwrap.wrap` turns into no line at all. (docs.py:18) -/
def splitLines : Text → List Text
  | [] => []
  | c :: t => if D.brk c then [] :: splitLines t else
    match splitLines t with
    | [] => [[c]]
    | l :: ls => (c :: l) :: ls

/-- `'\n'.join(lines)` (docs.py:29, 34, 35) -/
def join : List Text → Text
  | [] => []
  | [l] => l
  | l :: m :: ls => l ++ '\n' :: join (m :: ls)

/-- `txt.split('\n')` (docs.py:33, 34) -/
def splitNL : Text → List Text
  | [] => [[]]
  | c :: t => if c = '\n' then [] :: splitNL t else
    match splitNL t with
    | [] => [[c]]
    | l :: ls => (c :: l) :: ls

/-- `wrap_indent` with `ilevel=0` and `width=78`, as in all its calls. (docs.py:15-29) -/
def wrapIndent (txt : Text) (cr : Nat) : Text :=
  List.replicate cr '\n' ++ join ((D.splitLines txt).flatMap (D.wrap 78))

/-- `process_docstring` (docs.py:32-35) -/
def processDocstring (d : Text) : Text :=
  match splitNL d with
  | [] => []
  | l :: ls => join (l :: splitNL (D.dedent (join ls)))

/-- A class when docs.py gets it: the docstring of the class statement, the attributes `alias`, `inputs`, `outputs`, the
parameters with what is known about them, and the docstring of the method `_talib` (its own or that of a base; `none` if there
is no method or no docstring). (docs.py:38-93) -/
structure Klass where
  doc : Option Text
  aliases : List String
  inputs : List String
  outputs : List String
  params : Dict String PyVal
  info : Dict String PInfo
  talib : Option Text

/-- `', '.join(names)` (docs.py:47, 52, 57) -/
def names : List String → Text
  | [] => []
  | [n] => n.toList
  | n :: m :: ns => n.toList ++ ", ".toList ++ names (m :: ns)

/-- docs.py:45-58: one of the three lists of names. -/
def section_ (title : String) (l : List String) : Text :=
  if l.isEmpty then [] else D.wrapIndent ('\n' :: title.toList ++ names l) 2

/-- docs.py:67-74: how a default is shown. -/
def showVal : PyVal → Text
  | .str s => "'".toList ++ s.toList ++ "'".toList
  | .cls n => n.toList
  | v => D.fmt v

/-- `'{}'.format(pdoc)` (docs.py:81) -/
def showDoc : PyVal → Text
  | .str s => s.toList
  | v => D.fmt v

/-- docs.py:76-81: the text for a parameter. -/
def paramText (info : Dict String PInfo) (p : String × PyVal) : Text :=
  let head := "\n  - ".toList ++ p.1.toList ++ " (default: ".toList ++ D.showVal p.2 ++ ")".toList
  match get? info p.1 with
  | some i => if i.doc.truthy then head ++ "\n\n    ".toList ++ D.showDoc i.doc else head
  | none => head

/-- docs.py:60-83 -/
def paramsText (k : Klass) : Text :=
  if k.params.isEmpty then []
  else D.wrapIndent "\nParams:".toList 2 ++ k.params.flatMap (fun p => D.wrapIndent (D.paramText k.info p) 1)

/-- docs.py:85-91 -/
def talibText (k : Klass) : Text :=
  match k.talib with
  | none => []
  | some [] => []
  | some t => D.wrapIndent "TA-LIB (with compatibility flag \"_talib=True\"):".toList 2 ++ "\n\n".toList ++ D.processDocstring t

/-- `_generate`: the new `cls.__doc__`. (docs.py:38-93) -/
def help (k : Klass) : Text :=
  D.processDocstring (k.doc.getD []) ++ D.section_ "Aliases: " k.aliases ++ D.section_ "Inputs: " k.inputs
    ++ D.section_ "Outputs: " k.outputs ++ D.paramsText k ++ D.talibText k

end Docs

/-- The attribute `alias` when docs.py reads it: what the class statement says (`none`: nothing), a single string having been
made a tuple, else that of the base. (aliases.py:23-28, docs.py:45) -/
def aliasAttr (own : Option (List String)) (base : List String) : List String := own.getD base

/-- A class derived from one base, as far as the help text is concerned; the parameters are those of params.py, the names of inputs
and outputs those of lines.py. (indicator.py:61-65) -/
def deriveKlass (base : Docs.Klass) (doc : Option Text) (aliases : Option (List String)) (inputs outputs : List LDef)
    (params : PDecl) (talib : Option (Option Text)) : Except Err Docs.Klass := do
  let p ← genParams [⟨base.params, base.info⟩] params
  return ⟨doc, aliasAttr aliases base.aliases, (genLines [base.inputs] inputs []).lines, (genLines [base.outputs] outputs []).lines,
    p.params, p.info, talib.getD base.talib⟩

/-- `alias` along the bases (the tables have no empty `alias`). (aliases.py:23-28, docs.py:45) -/
def aliasChain : List Row → List String
  | [] => []
  | r :: rs => aliasAttr (if r.alias.isEmpty then none else some r.alias) (aliasChain rs)

/-- A class of the library: names and parameters from the tables, the docstrings as given. (indicators/*.py) -/
def libKlass (c : Cls) (doc talib : Option Text) : Docs.Klass :=
  ⟨doc, aliasChain c.rows, (inGen c.rows).lines, (outGen c.rows).lines, c.defaults,
    match genChain (c.chain.reverse.map (fun d => PDecl.seq d.own)) with
    | .ok p => p.info
    | .error _ => [], talib⟩

end Bta.Meta
