#!/usr/bin/env python3
"""Test the theorems against wrong programs.

usage: mutate.py mutants.json [log]

Each mutant is {"file", "old", "new", "def", "edit", "claim"} (and "targets"): the text `old` of the model file is replaced by `new` in a
scratch copy of the Lean project, which is then rebuilt.  Declarations with errors are collected; theorems and examples
are told apart, since an example is only a test.  The build is stopped 40 seconds after the first theorem has failed.
"""
import json, os, re, shutil, signal, subprocess, sys, threading

SRC = '/verif/lean'
DST = '/tmp/mut'

def sync():
    os.makedirs(DST, exist_ok=True)
    if not os.path.isdir(DST + '/.lake'):
        subprocess.run(['cp', '-a', SRC + '/.', DST], check=True)
    subprocess.run(['rm', '-rf', DST + '/Verif', DST + '/Verif.lean'], check=True)
    # the last commit, so that work in progress does not interfere
    subprocess.run('git -C /verif archive HEAD lean/Verif lean/Verif.lean | tar x --strip-components=1 -C ' + DST, shell=True, check=True)

DECL = re.compile(r'^(?:@\[[^\]]*\]\s*)*(?:private |protected |noncomputable )*(theorem|lemma|example|def|instance|abbrev|structure|inductive)\b\s*(\S+)?')

def enclosing(path, line):
    kind = name = None
    for n, l in enumerate(open(path), 1):
        if n > line:
            break
        m = DECL.match(l)
        if m:
            kind, name = m.group(1), m.group(2)
    return kind, name

def build(args):
    """lake build; the return code and what it prints"""
    p = subprocess.Popen(['lake', 'build'] + args, cwd=DST, stdout=subprocess.PIPE, stderr=subprocess.STDOUT, text=True,
                         start_new_session=True)
    def stop():
        try:
            os.killpg(p.pid, signal.SIGKILL)
        except ProcessLookupError:
            pass
    txt, timer = [], None
    for line in p.stdout:
        txt.append(line)
        e = re.match(r'error: (Verif/\S+?\.lean):(\d+):\d+', line)
        if e and timer is None and enclosing(f'{DST}/{e.group(1)}', int(e.group(2)))[0] in ('theorem', 'lemma'):
            timer = threading.Timer(40, stop)
            timer.start()
    rc = p.wait()
    if timer:
        timer.cancel()
    return rc, ''.join(txt)

def run(m):
    sync()
    p = f"{DST}/{m['file']}"
    s = open(p).read()
    if s.count(m['old']) != 1:
        return {'error': f"pattern occurs {s.count(m['old'])} times"}
    open(p, 'w').write(s.replace(m['old'], m['new']))
    # the modules named in "targets" first; everything only if they still build
    rc = None
    if m.get('targets'):
        rc, txt = build(m['targets'])
    if rc is None or rc == 0:
        rc, txt = build([])
    thms, exs, other = [], [], []
    for f, ln in re.findall(r'error: (Verif/\S+?\.lean):(\d+):\d+', txt):
        kind, name = enclosing(f'{DST}/{f}', int(ln))
        if kind == 'example':
            exs.append(f'{f}:{ln}')
        elif kind in ('theorem', 'lemma'):
            thms.append(name)
        else:
            other.append(f'{f}:{name}')
    blocked = sorted(set(re.findall(r'^- (Verif\.\S+)', txt, re.M)))
    uniq = lambda l: list(dict.fromkeys(l))
    return {'rc': rc, 'thms': uniq(thms), 'examples': uniq(exs), 'other': uniq(other), 'failed_modules': blocked}

def main():
    log = sys.argv[2] if len(sys.argv) > 2 else '/verif/seeded/LOG.jsonl'
    for m in json.load(open(sys.argv[1])):
        r = run(m)
        if 'error' in r or any(o.startswith(m['file']) for o in r['other']) or (r['other'] and not r['thms']):
            print('INVALID', m['def'], '|', m['edit'], r, flush=True)
            continue
        verdict = 'killed' if r['thms'] else ('SURVIVED (examples only)' if r['examples'] else 'SURVIVED')
        print(verdict, m['def'], '|', m['edit'], '|', r['thms'][:6], r['examples'][:2], flush=True)
        rec = {'definition': m['def'], 'edit': m['edit'], 'claim': m['claim'], 'result': verdict,
               'theorems_failed': r['thms'], 'examples_failed': r['examples'], 'theorems_tightened': m.get('tightened', [])}
        with open(log, 'a') as f:
            f.write(json.dumps(rec) + '\n')
    sync()

main()
