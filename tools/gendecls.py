#!/usr/bin/env python3
"""Transcribes the parameters and ta-lib hooks of the classes of /repo/btalib/indicators into
lean/Verif/Meta/Decls.lean (reads the text only)."""
import ast, re
from fractions import Fraction

R = '/repo/btalib/indicators/'
order = re.findall(r'^from \.(\w+) import \*', open(R + '__init__.py').read(), re.M)
SEEDS = dict(re.findall(r'^(SEED_\w+) = (\d+)', open('/repo/btalib/utils.py').read(), re.M))

rows, names = [], {}
for mod in order:
    for c in ast.parse(open(R + mod + '.py').read()).body:
        if not isinstance(c, ast.ClassDef):
            continue
        row = dict(name=c.name, mod=mod, base=c.bases[0].id, params=[], hook=None, line=c.lineno, end=c.end_lineno)
        names[c.name] = c.name
        for s in c.body:
            if isinstance(s, ast.Assign) and s.targets[0].id == 'alias':
                v = ast.literal_eval(s.value)
                for a in [v] if isinstance(v, str) else v:
                    names[a] = c.name
            if isinstance(s, ast.Assign) and s.targets[0].id == 'params':
                row['params'] = [(e.elts[0].value, e.elts[1:]) for e in s.value.elts]
            if isinstance(s, ast.FunctionDef) and s.name == '_talib':
                row['hook'] = []
                for n in ast.walk(s):
                    if isinstance(n, ast.Call) and isinstance(n.func, ast.Attribute) and n.func.attr == 'setdefault':
                        row['hook'].append((n.args[0].value, n.args[1]))
        rows.append(row)


def val(n):
    if isinstance(n, ast.Name):
        if n.id in SEEDS:
            return '.int %s' % SEEDS[n.id]
        return '.cls "%s"' % names[n.id]
    v = ast.literal_eval(n)
    if v is None:
        return '.none'
    if isinstance(v, bool):
        return '.bool %s' % str(v).lower()
    if isinstance(v, int):
        return '.int %d' % v
    if isinstance(v, float):
        f = Fraction(repr(v))
        return '.num %d' % f.numerator if f.denominator == 1 else '.num (%d / %d)' % (f.numerator, f.denominator)
    return '.str "%s"' % v.replace('\\', '\\\\').replace('"', '\\"').replace('\n', '\\n')


def ident(n):
    return '«%s»' % n if n in ('max', 'min', 'sum', 'div') else n


by = {r['name']: r for r in rows}


def chain(r):
    l = [r]
    while l[0]['base'] != 'Indicator':
        l.insert(0, by[l[0]['base']])
    return l


def merged(r):
    d = {}
    for c in chain(r):
        for n, e in c['params']:
            d[n] = val(e[0])
    return d


def wrap(items, ind):
    out, line = [], ind
    for i, x in enumerate(items):
        t = x + (', ' if i + 1 < len(items) else '')
        if len(line) + len(t) > 118:
            out.append(line.rstrip())
            line = ind
        line += t
    return '\n'.join(out + [line])


o = []
o.append('''import Verif.Meta.Call
import Verif.Meta.Table

/-!
# Parameters and ta-lib hooks of the classes of the library

Written by `tools/gendecls.py` from the text of `btalib/indicators/*.py`, in the order of `Table.lean`.
Floats are the numbers as written; `SEED_AVG`, ... are the integers of utils.py:16-21; a class given as a default is its
name (an alias is replaced by the name of its class).
-/

namespace Bta.Meta

open Py

/-- The classes of the library, in the order of their creation. (indicators/__init__.py:14-90) -/
inductive Cls where
''')
o.append(wrap(['| ' + ident(r['name']) for r in rows], '  ').replace(', ', ' ').replace(',\n', '\n') + '\nderiving DecidableEq, Repr\n\nnamespace Cls\n')
o.append('/-- All classes. (indicators/__init__.py:14-90) -/\ndef all : List Cls :=\n  [' + wrap(['.' + ident(r['name']) for r in rows], '   ').lstrip() + ']\n')
o.append('/-- The class statement. (see `Table.lean`) (indicators/*.py) -/\ndef row : Cls → Row')
for r in rows:
    o.append('  | .%s => row_%s' % (ident(r['name']), r['name']))
o.append('\n/-- The base class, if it is not `Indicator`. (the class statements of indicators/*.py) -/\ndef base : Cls → Option Cls')
for r in rows:
    if r['base'] != 'Indicator':
        o.append('  | .%s => some .%s' % (ident(r['name']), ident(r['base'])))
o.append('  | _ => none\n')
o.append('/-- The attribute `params` of the class statement: name, then default, documentation. (indicators/*.py) -/')
o.append('def own : Cls → List (String × List PyVal)')
for r in rows:
    if r['params']:
        o.append('  -- %s.py:%d-%d' % (r['mod'], r['line'], r['end']))
        o.append('  | .%s =>\n    [%s]' % (ident(r['name']), ',\n     '.join(
            '("%s", [%s])' % (n, ', '.join(val(x) for x in e)) for n, e in r['params'])))
o.append('  | _ => []\n')
o.append('/-- The calls `kwdict.setdefault(name, value)` of the method `_talib` of the class statement, if there is one.\n'
         'What it does besides (obv, macd, stochrsi, ...) is in `Api.lean`. (indicators/*.py) -/')
o.append('def hook : Cls → Option Hook')
for r in rows:
    if r['hook'] is not None:
        o.append('  | .%s => some [%s]' % (ident(r['name']), ', '.join('("%s", %s)' % (n, val(v)) for n, v in r['hook'])))
o.append('  | _ => none\n')
o.append('/-- `cls.params`: what params.py makes of the declarations along the bases; see `defaults_eq`. (params.py:76-122) -/')
o.append('def defaults : Cls → Dict String PyVal')
for r in rows:
    d = merged(r)
    if d:
        o.append('  | .%s =>\n    [%s]' % (ident(r['name']), wrap(['("%s", %s)' % p for p in d.items()], '     ').lstrip()))
o.append('  | _ => []\n')
o.append('''/-- The class and its bases, the most derived first, without `Indicator`. (python's `__mro__`, indicator.py:91-95) -/
def chain (c : Cls) : List Cls :=
  c :: match c.base with
    | none => []
    | some b => b :: match b.base with
      | none => []
      | some b => b :: match b.base with
        | none => []
        | some b => b :: match b.base with
          | none => []
          | some b => [b]

/-- The hooks which run, in order: those of the bases first. (indicator.py:139-141) -/
def hooks (c : Cls) : List Hook := c.chain.reverse.filterMap hook

/-- The class statements of the class and its bases, the most derived first. (indicator.py:91-95) -/
def rows (c : Cls) : List Row := c.chain.map row ++ [indicatorRow]

/-- The class with a name (given by a python reference, as in `_ma=btalib.ema`). (indicators/*.py) -/
def ofName (n : String) : Option Cls := all.find? (fun c => c.row.name == n)

end Cls
end Bta.Meta
''')
open('/verif/lean/Verif/Meta/Decls.lean', 'w').write('\n'.join(o))
