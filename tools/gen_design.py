#!/usr/bin/env python3
"""Writes DESIGN.md: hand-written text plus the per-property table (from MANIFEST.json and METHODS)."""
import json, os
root = os.path.dirname(os.path.dirname(os.path.abspath(__file__)))
exec(open(root + '/tools/design_methods.py').read())   # METHODS
text = open(root + '/tools/design_text.md').read()
props = {}
for l in open(root + '/properties.jsonl'):
    p = json.loads(l); props[p['id']] = p
rows = []
for c in json.load(open(root + '/MANIFEST.json'))['claims']:
    i = c['property']
    short = lambda t: t.replace('Hotswap.', '', 1)
    rows.append('### %s — %s (%s)\n\n%s\n\nTheorems: %s.%s\n' % (i, props[i]['title'], c['status'], METHODS[i],
        ', '.join('`%s`' % short(t) for t in c['theorems']), ('\n\n' + c['note']) if c['note'] else ''))
open(root + '/DESIGN.md', 'w').write(text.replace('@@TABLE@@', '\n'.join(rows)))
missing = [i for i in props if i not in METHODS]
print('methods missing:', missing)
