#!/usr/bin/env python3
"""Add or replace one property: prop.py ID title statement quantifier why anchor,anchor,..."""
import json, sys
p = '/verif/properties.jsonl'
rows = [json.loads(l) for l in open(p) if l.strip()]
i, t, s, q, w, a = sys.argv[1:7]
old = next((r for r in rows if r['id'] == i), {})
new = {'id': i, 'title': t or old['title'], 'statement': s or old['statement'],
       'quantifier': q or old['quantifier'], 'why_tests_cant': w or old['why_tests_cant'],
       'anchors': a.split(',') if a else old['anchors']}
rows = [r for r in rows if r['id'] != i] + [new]
rows.sort(key=lambda r: int(r['id'][1:]))
open(p, 'w').write(''.join(json.dumps(r, ensure_ascii=False) + '\n' for r in rows))
