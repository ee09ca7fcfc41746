#!/usr/bin/env python3
# Writes lean/Verif/Model/Ed25519/Tables.lean from const.go.
import re
src=open('/repo/crypto/internal/ed25519/edwards25519/const.go').read()
lines=src.split('\n')
bi0=next(i for i,l in enumerate(lines) if l.startswith('var bi ='))
ba0=next(i for i,l in enumerate(lines) if l.startswith('var base ='))
def fes(a,b):
    return [(i+1,[int(x) for x in re.findall(r'-?\d+',l.split('{',1)[1])]) for i,l in enumerate(lines[a:b],start=a) if 'FieldElement{' in l and not l.startswith('var')]
bi=fes(bi0+1,ba0); base=fes(ba0+1,len(lines))
assert len(bi)==24 and len(base)==768, (len(bi),len(base))
def fe(v):
    assert len(v)==10
    return '⟨'+', '.join(map(str,v))+'⟩'
o='''import Verif.Model.Ed25519.Field
/-
Generated by tools/gen_tables.py from crypto/internal/ed25519/edwards25519/const.go: the precomputed multiples of the base point.
-/
namespace Coniks.Ed

/-- edwards25519.go:1001-1003 `PreComputedGroupElement` -/
structure Pre where
  yPlusX : Fe
  yMinusX : Fe
  xy2d : Fe
  deriving DecidableEq

'''
def entry(t): return '  ⟨%s,\n   %s,\n   %s⟩'%tuple(fe(v) for _,v in t)
o+='/-- const.go:%d-%d `bi` -/\ndef tblBi : List Pre := [\n'%(bi0+1,ba0-1)
o+=',\n'.join(entry(bi[3*i:3*i+3]) for i in range(8))+']\n\n'
for r in range(32):
    row=base[24*r:24*r+24]
    o+='/-- const.go:%d-%d `base[%d]` -/\ndef tblBase%d : List Pre := [\n'%(row[0][0]-1,row[-1][0]+1,r,r)
    o+=',\n'.join(entry(row[3*i:3*i+3]) for i in range(8))+']\n\n'
o+='/-- const.go:%d-%d `base` -/\ndef tblBase : List (List Pre) := [%s]\n\nend Coniks.Ed\n'%(ba0+1,len(lines)-1,', '.join('tblBase%d'%r for r in range(32)))
open('/verif/lean/Verif/Model/Ed25519/Tables.lean','w').write(o)
