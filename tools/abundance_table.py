#!/usr/bin/env python3
"""Generates lean/Verif/AbundanceTable.lean from /repo/solarwindpy/core/data/asplund*.csv (numbers in thousandths of a dex)."""
import csv
from decimal import Decimal
out = ['import Verif.Spacecraft', '', '/-!', '# The reference abundances shipped with the package (generated by tools/abundance_table.py)', '',
 'Models `/repo/solarwindpy/core/data/asplund2009.csv:8-90`, `/repo/solarwindpy/core/data/asplund2021.csv:8-90` as read by',
 '`/repo/solarwindpy/core/abundances.py:108-128`.  Abundances and uncertainties are in thousandths; `none` is an empty field.', '-/', '',
 'namespace SW', '',
 '/-- one line: Z, symbol, chondrites (Ab, Uncert), photosphere (Ab, Uncert), comment -/',
 'structure TRow where', '  z : Int', '  sym : String', '  ci : Option Int × Option Int', '  ph : Option Int × Option Int', '  comment : String', '  deriving DecidableEq', '']
def v(x):
    if x == '': return 'none'
    k = Decimal(x) * 1000
    assert k == int(k)
    return f'some {int(k)}' if k >= 0 else f'some ({int(k)})'
for y in (2009, 2021):
    rows = list(csv.reader(open(f'/repo/solarwindpy/core/data/asplund{y}.csv')))
    i = [k for k, r in enumerate(rows) if r[:2] == ['Z', 'Symbol']][0]
    out.append(f'/-- asplund{y}.csv:8-90 -/')
    out.append(f'def asplund{y} : List TRow := [')
    L = []
    for r in rows[i+1:]:
        c = r[6] if len(r) > 6 else ''
        L.append(f'  ⟨{r[0]}, "{r[1]}", ({v(r[2])}, {v(r[3])}), ({v(r[4])}, {v(r[5])}), "{c}"⟩')
    out.append(',\n'.join(L) + ']')
    out.append('')
out += ['end SW', '']
open('/verif/lean/Verif/AbundanceTable.lean', 'w').write('\n'.join(out))
