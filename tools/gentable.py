#!/usr/bin/env python3
"""Transcribes the class definitions of /repo/btalib/indicators into lean/Verif/Meta/Table.lean (reads the text only)."""
import ast, re

R = '/repo/btalib/indicators/'
order = re.findall(r'^from \.(\w+) import \*', open(R + '__init__.py').read(), re.M)


def strs(node):
    """A str or a tuple of str; remappings do not occur in the library."""
    v = ast.literal_eval(node)
    return [v] if isinstance(v, str) else list(v)


def lst(l):
    return '[' + ', '.join('"%s"' % x for x in l) + ']'


def opt(l):
    return 'none' if l is None else '(some %s)' % lst(l)


def is_self(n, attrs):
    return isinstance(n, ast.Attribute) and n.attr in attrs and isinstance(n.value, ast.Name) and n.value.id == 'self'


def key(n):
    """The attribute or index of an access to self.i or self.o"""
    if isinstance(n, ast.Attribute):
        return n.attr
    return '[%d]' % ast.literal_eval(n.slice)


def expr(n):
    """Accesses in an expression, in the order of evaluation"""
    r = []
    for ch in ast.iter_child_nodes(n):
        r += expr(ch)
    if isinstance(n, (ast.Attribute, ast.Subscript)):
        if is_self(n.value, ('i', 'inputs')) and not isinstance(n.value, ast.Name):
            r.append(('iread', key(n)))
        elif is_self(n.value, ('o', 'outputs', 'l', 'lines')):
            r.append(('get', key(n)))
    return r


def block(stmts):
    """Accesses of statements: those of an if are conditional unless both branches have them."""
    r = []
    for s in stmts:
        if isinstance(s, ast.If):
            r += expr(s.test)
            x, y = block(s.body), block(s.orelse)
            sets = lambda l: {n for k, n in l if k == 'set'}
            both = [n for k, n in x if k == 'set' and n in sets(y)]
            for k, n in x + y:
                if k == 'iread':
                    r.append(('ifiread', n))
                elif k == 'set':
                    if n not in both:
                        r.append(('ifset', n))
                else:
                    r.append((k, n))
            r += [('set', n) for n in both]
        elif isinstance(s, ast.Assign):
            r += expr(s.value)
            for t in s.targets:
                for u in (t.elts if isinstance(t, ast.Tuple) else [t]):
                    if isinstance(u, (ast.Attribute, ast.Subscript)) and is_self(u.value, ('o', 'outputs', 'l', 'lines')):
                        r.append(('set', key(u)))
                    else:
                        r += expr(u)
        elif isinstance(s, (ast.Expr, ast.Return, ast.AugAssign)):
            assert not (isinstance(s, ast.AugAssign) and any(k == 'get' for k, _ in expr(s.target)))
            r += expr(s)
        elif isinstance(s, (ast.FunctionDef, ast.Pass, ast.For)):
            assert not expr(s), ast.dump(s)
        else:
            raise SystemExit(ast.dump(s))
    return r


rows = []
for mod in order:
    src = open(R + mod + '.py').read()
    for c in ast.parse(src).body:
        if not isinstance(c, ast.ClassDef):
            continue
        row = dict(name=c.name, mod=mod, base=c.bases[0].id, inputs=None, iext=[], outputs=None, alias=[], group=None, groups=None,
                   allow=0, init=False, kws=[], anykw=False, acc=[], hook=False, sets=[], params=[], line=c.lineno,
                   end=c.end_lineno)
        assert len(c.bases) == 1
        for s in c.body:
            if isinstance(s, ast.Assign) and len(s.targets) == 1 and isinstance(s.targets[0], ast.Name):
                n = s.targets[0].id
                if n in ('inputs', 'outputs', 'alias', 'group', 'groups'):
                    row[n] = strs(s.value)
                elif n == 'allowinputs':
                    row['allow'] = ast.literal_eval(s.value)
                elif n == 'params':
                    row['params'] = [e.elts[0].value for e in s.value.elts]
                elif n == 'inputs_extend':
                    row['iext'] = strs(s.value)
                assert n == 'inputs_extend' or not n.endswith('_extend')
            if isinstance(s, ast.FunctionDef) and s.name == '__init__':
                row['init'] = True
                row['kws'] = [a.arg for a in s.args.args[1:]]
                row['anykw'] = s.args.kwarg is not None
                assert s.args.vararg is None and not s.args.kwonlyargs
            if isinstance(s, ast.FunctionDef) and s.name == '_talib':
                row['hook'] = True
                for n in ast.walk(s):
                    if isinstance(n, ast.Call) and isinstance(n.func, ast.Attribute) and n.func.attr == 'setdefault':
                        row['sets'].append(n.args[0].value)
                    # nothing but setdefault/get may touch the keywords
                    if isinstance(n, ast.Attribute) and isinstance(n.value, ast.Name) and n.value.id == 'kwdict':
                        assert n.attr in ('setdefault', 'get'), (c.name, n.attr)
                    if isinstance(n, ast.Subscript) and isinstance(n.value, ast.Name) and n.value.id == 'kwdict':
                        raise SystemExit('kwdict[] in ' + c.name)
            if isinstance(s, ast.FunctionDef) and s.name == '__init__':
                row['acc'] = block(s.body)
            elif isinstance(s, ast.FunctionDef):
                rest = [x for x in block(s.body) if x != ('get', '__slots__')]
                assert not rest, (c.name, s.name, rest)
        rows.append(row)

out = '''import Verif.Meta.Py

/-!
# The class definitions of the library

Written by `tools/gentable.py` from the text of `btalib/indicators/*.py`; modules in the order of
`btalib/indicators/__init__.py:14-90`, classes in the order of the modules.
-/

namespace Bta.Meta

/-- An access in an `__init__`, in the order of evaluation: `self.i.<name>` (`ifiread`: in a branch only),
`self.o.<name> = ..` (`ifset`: in one branch only), `self.o.<name>`; the name `[0]` stands for `self.o[0]`. -/
inductive Acc where
  | iread (n : String)
  | ifiread (n : String)
  | set (n : String)
  | ifset (n : String)
  | get (n : String)
deriving DecidableEq, Repr

/-- One class statement.  `base`: the (only) base class; `inputs`, `outputs`, `group`: the class attributes, if there are;
`iext`: `inputs_extend`; `groups`: the class attribute with this (misspelt) name; `alias`, `allow` (`allowinputs`),
`params` (names);
`init`: whether the class has an `__init__`; `kws`: its arguments; `anykw`: whether it has `**kwargs`;
`acc`: the accesses to `self.i` and `self.o` in `__init__`; `hook`: whether it has a `_talib`; `sets`: the names given to
`kwdict.setdefault` in it. -/
structure Row where
  name : String
  mod : String
  base : String
  inputs : Option (List String)
  iext : List String
  outputs : Option (List String)
  alias : List String
  group : Option (List String)
  groups : Option (List String)
  allow : Nat
  params : List String
  init : Bool
  kws : List String
  anykw : Bool
  acc : List Acc
  hook : Bool
  sets : List String
deriving DecidableEq, Repr

/-- `btalib/indicator.py:187-208` -/
def indicatorRow : Row :=
  ⟨"Indicator", "indicator", "", some ["close"], [], none, [], none, none, 0, [], true, [], true, [], true, []⟩

'''
for r in rows:
    out += '/-- indicators/%s.py:%d-%d -/\n' % (r['mod'], r['line'], r['end'])
    out += 'def row_%s : Row :=\n  ⟨"%s", "%s", "%s", %s, %s, %s, %s,\n    %s, %s, %d, %s, %s, %s, %s,\n    %s, %s, %s⟩\n\n' % (
        r['name'], r['name'], r['mod'], r['base'], opt(r['inputs']), lst(r['iext']), opt(r['outputs']), lst(r['alias']),
        opt(r['group']), opt(r['groups']), r['allow'], lst(r['params']), str(r['init']).lower(), lst(r['kws']), str(r['anykw']).lower(), '[' + ', '.join('.%s "%s"' % x for x in r['acc']) + ']', str(r['hook']).lower(), lst(r['sets']))
out += '/-- All classes, in the order of their creation. -/\ndef library : List Row :=\n  [' + ', '.join('row_' + r['name'] for r in rows) + ']\n\nend Bta.Meta\n'
# wrap the long list
import textwrap
head, tail = out.rsplit('  [row_', 1)
tail = '[row_' + tail
lstt, rest = tail.split(']\n', 1)
out = head + '\n'.join(textwrap.wrap(lstt + ']', 118, initial_indent='  ', subsequent_indent='   ')) + '\n' + rest
open('/verif/lean/Verif/Meta/Table.lean', 'w').write(out)
print(len(rows))
