#!/usr/bin/env python3
"""Writes MANIFEST.json: theorems are collected from lean/Verif/Props by their Cnn_ prefix."""
import re, json, glob, os
root = os.path.dirname(os.path.dirname(os.path.abspath(__file__)))
th = {}
for f in sorted(glob.glob(root + '/lean/Verif/Props/*.lean')):
    ns = []
    for line in open(f):
        m = re.match(r'\s*namespace\s+(\S+)', line)
        if m: ns.append(m.group(1)); continue
        m = re.match(r'\s*end\s+(\S+)', line)
        if m and ns and ns[-1] == m.group(1): ns.pop(); continue
        m = re.match(r'\s*theorem\s+((C\d\d)_\S+)', line)
        if m:
            name = '.'.join(ns + [m.group(1)]).rstrip(':')
            th.setdefault(m.group(2), []).append(name)
PARTIAL, NOTES = {}, {}
EXTRA = {"C82": ["Hotswap.C32_exact"]}
exec(open(root + '/tools/manifest_notes.py').read())
ids = [json.loads(l)['id'] for l in open(root + '/properties.jsonl')]
claims = []
for i in ids:
    ts = th.get(i, []) + EXTRA.get(i, [])
    if not ts: continue
    claims.append({"property": i, "status": "partial" if i in PARTIAL else "proved", "theorems": ts, "note": NOTES.get(i, "")})
json.dump({"claims": claims}, open(root + '/MANIFEST.json', 'w'), indent=1, ensure_ascii=False)
print(len(claims), 'claims;', 'without theorem:', [i for i in ids if i not in th])
