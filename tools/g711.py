#!/usr/bin/env python3
"""Reads the companding tables out of the text of /repo/src/g711.h."""
import re, sys
def tables(path='/repo/src/g711.h'):
    s = open(path).read()
    s = re.sub(r'/\*.*?\*/', '', s, flags=re.S)
    t = {}
    for m in re.finditer(r'const\s+(\w+)\s+(_\w+)\[(\w+)\][^=]*=\s*\{([^}]*)\}', s):
        vals = [int(x, 0) for x in m.group(4).replace('\n', ' ').split(',') if x.strip()]
        t[m.group(2)] = (m.group(1), int(m.group(3), 0), vals)
    return t
def runs(v):
    r = []
    for x in v:
        if r and r[-1][1] == x: r[-1][0] += 1
        else: r.append([1, x])
    return r
if __name__ == '__main__':
    for k, (ty, n, v) in tables().items():
        print(k, ty, n, len(v), 'runs', len(runs(v)), v[:4], v[-4:])
