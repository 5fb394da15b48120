#!/usr/bin/env python3
"""Compare data/keyd.compose and src/unicode.c of the repository with what Model/Compose.lean says they contain:
line n is `<Cancel> <a> <b> <c> : "x"` where a, b, c are the base 36 digits of n and x is entry n of unicode_table.
This check is outside the proofs (see DESIGN.md)."""
import re, sys
repo = sys.argv[1] if len(sys.argv) > 1 else '/repo'
table = [int(x) for x in re.search(r'unicode_table\[\] = \{(.*?)\}', open(repo + '/src/unicode.c').read(), re.S).group(1).split(',')]
lean = open(__file__.rsplit('/', 2)[0] + '/lean/Verif/Model/Unicode.lean').read()
body = lean[lean.index('def unicodeRuns'):lean.index('def unicodeLookupRuns')]
runs = [(int(a), int(b)) for a, b in re.findall(r'\((\d+),\s*(\d+)\)', body)]
model = [s + i for s, n in runs for i in range(n)]
if model != table:
    i = next(j for j, (a, b) in enumerate(zip(model, table)) if a != b)
    raise SystemExit(f"tables differ at {i}: {model[i:i+3]} {table[i:i+3]} ({len(model)}, {len(table)})")
d = '0123456789abcdefghijklmnopqrstuvwxyz'
lines = open(repo + '/data/keyd.compose', encoding='utf8', newline='').read().split('\n')
assert lines[-1] == '' and len(lines) - 1 == len(table), 'number of lines'
for n, c in enumerate(table):
    want = '<Cancel> <%s> <%s> <%s> : "%s"' % (d[n // 1296 % 36], d[n // 36 % 36], d[n % 36], chr(c))
    assert lines[n] == want, (n, lines[n], want)
print('ok', len(table), 'lines')
