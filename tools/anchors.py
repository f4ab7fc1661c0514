#!/usr/bin/env python3
"""Check that each file and line range cited in properties.jsonl and in the comments of the model exists in /repo."""
import glob, json, os, re
R = '/repo'
files = {os.path.relpath(p, R): sum(1 for _ in open(p, errors='replace'))
         for p in glob.glob(R + '/**/*.py', recursive=True)}
def resolve(f):
    return [k for k in files if k == f or k.endswith('/' + f)]
bad = 0
def check(where, text):
    global bad
    for f, ranges in re.findall(r'([\w/*]*\w\.py)\b((?::\s?\d[\d\-, ]*)?)', text):
        hits = resolve(f)
        if not hits and '*' not in f:
            print(where, 'no such file', f); bad += 1; continue
        for n in re.findall(r'\d+', ranges):
            if hits and int(n) > max(files[h] for h in hits):
                print(where, f, 'has no line', n); bad += 1
for l in open('/verif/properties.jsonl'):
    d = json.loads(l)
    for a in d['anchors']:
        check(d['id'], a)
for p in glob.glob('/verif/lean/Verif/**/*.lean', recursive=True):
    for i, l in enumerate(open(p), 1):
        check(f'{os.path.relpath(p, "/verif/lean")}:{i}', l)
print('bad', bad)
