#!/usr/bin/env python3
"""Turn the unit-test vectors of /repo into `#guard`s on the model (Verif/Tests.lean)."""
import re
R='/repo/src/'
def tests(f):
    s=open(R+f).read(); return s[s.index('#[cfg(test)]'):]
def fl(s):
    # numbers: 1. -> 1.0, 5f64 suffix, E-002
    s=s.replace('f64::NAN','(0.0/0.0)').replace('f64','')
    s=re.sub(r'(\d)\.(?!\d)',r'\1.0',s)
    s=re.sub(r'[eE]([+-]?)0*(\d+)',r'e\1\2',s)
    return s
def val(s):
    s=s.strip()
    s=re.sub(r'&mut\s+|&','',s).replace('vec!','')
    s=s.replace('std::consts::SQRT_2','1.4142135623730951').replace('std::f64::consts::SQRT_2','1.4142135623730951')
    for _ in range(2):
        s=re.sub(r'\[([\d.]+|\[[^\[\];]*\]); (\d+)\]',lambda m:'['+', '.join([m.group(1)]*int(m.group(2)))+']',s)
    return fl(s)
def split(s):
    out=[];d=0;c='';q=False
    for ch in s:
        if ch=='"': q=not q
        if not q:
            if ch in '[(': d+=1
            if ch in '])': d-=1
            if ch==',' and d==0:
                out.append(c.strip()); c=''; continue
        c+=ch
    if c.strip(): out.append(c.strip())
    return out
def cases(f):
    t=tests(f); res=[]
    i=0
    while True:
        i=t.find('#[case(',i)
        if i<0: break
        j=i+7; d=1
        while d>0:
            if t[j] in '([': d+=1
            if t[j] in ')]': d-=1
            j+=1
        res.append(split(t[i+7:j-1])); i=j
    return res
o=[]
def neg(x):
    x=val(x)
    return '('+x+')' if x.startswith('-') else x
def lst(x,ty): return '(%s : %s)'%(val(x),ty)
LF='List Float'; LLF='List (List Float)'
for c in cases('blas/dcopy.rs'):
    o.append(f'#guard okIs (dcopy (F := Float) {c[0]} {lst(c[1],LF)} {c[2]} {lst(c[3],LF)} {c[4]}) (feq {val(c[5])})')
for c in cases('blas/dgemm.rs'):
    a=[c[0],c[1]]
    o.append(f"#guard okIs (dgemm (F := Float) {c[0]} {c[1]} 2 2 2 {val(c[2])} {lst(c[4],LLF)} 2 {lst(c[5],LLF)} 2 {val(c[3])} ([[1.0,1.0],[1.0,1.0]] : {LLF}) 2) (feq2 {val(c[6])})")
for c in cases('blas/dnrm2.rs'):
    o.append(f'#guard okIs (dnrm2 (F := Float) {c[0]} {lst(c[1],LF)} {c[2]}) (near 1e-15 {val(c[3])})')
for c in cases('blas/drot.rs'):
    o.append(f'#guard okIs (drot (F := Float) {c[0]} {lst(c[1],LF)} {c[2]} {lst(c[3],LF)} {c[4]} {val(c[5])} {val(c[6])}) (fun r => feq {val(c[7])} r.1 && feq {val(c[8])} r.2)')
for c in cases('blas/dscal.rs'):
    o.append(f'#guard okIs (dscal (F := Float) {c[0]} {neg(c[1])} {lst(c[2],LF)} ({c[3]})) (feq {val(c[4])})')
for c in cases('blas/dtrmm.rs'):
    o.append(f"#guard okIs (dtrmm (F := Float) {c[0]} {c[1]} {c[2]} {c[3]} {c[4]} {c[5]} {val(c[6])} {lst(c[7],LLF)} {c[8]} {lst(c[9],LLF)} {c[10]}) (fun r => feq2 {val(c[11])} r.1 && feq2 {val(c[12])} r.2)")
for c in cases('blas/lsame.rs'):
    o.append(f"#guard lsame {c[0]} {c[1]} == {c[2]}")
A='([[1.0,2.0,3.0],[4.0,5.0,6.0],[7.0,8.0,9.0]] : List (List Float))'
Z='([[0.0,0.0,0.0],[0.0,0.0,0.0],[0.0,0.0,0.0]] : List (List Float))'
for f,call in (('dlacpy.rs',lambda u:f"dlacpy (F := Float) '{u}' 3 3 {A} 3 {Z} 3"),('dlaset.rs',lambda u:f"dlaset (F := Float) '{u}' 3 3 1.0 2.0 {Z}")):
    t=tests(f)
    for m in re.finditer(r"%s\('(.)'[^;]*;\s*assert_eq!\((.*?)\);"%f[:-3],t,re.S):
        e=m.group(2)
        e = e.split(',',1)[1] if 'vec!' in e else A
        e=' '.join(e.split())
        o.append(f"#guard okIs ({call(m.group(1))}) (feq2 {val(e) if 'vec!' in e else A})")
for c in cases('dlahqr.rs'):
    h,wr,wi,z=c[5],c[7],c[8],c[11]
    o.append(f"#guard okIs (dlahqr (F := Float) 100 {c[0]} {c[1]} {c[2]} {c[3]} {c[4]} {lst(h,LLF)} {c[6]} {lst(wr,LF)} {lst(wi,LF)} {c[9]} {c[10]} {lst(z,LLF)} {c[12]}) (fun r => feq2 {val(c[14])} r.h && feq {val(c[15])} r.wr && feq {val(c[16])} r.wi && feq2 {val(c[17])} r.z)")
for c in cases('dlanv2.rs'):
    a=' '.join(neg(x) for x in c[:4]); e='['+', '.join(val(x) for x in c[8:18])+']'
    o.append(f"#guard (let r := dlanv2 (F := Float) {a}; feq {e} [r.a, r.b, r.c, r.d, r.rt1r, r.rt1i, r.rt2r, r.rt2i, r.cs, r.sn])")
for c in cases('dlapy2.rs'):
    o.append(f"#guard near 2.220446049250313e-16 {val(c[2])} (dlapy2 (F := Float) {neg(c[0])} {neg(c[1])})")
for c in cases('dlaqr1.rs'):
    n=int(c[0])
    o.append(f"#guard okIs (dlaqr1 (F := Float) {c[0]} {lst(c[1],LLF)} {c[2]} {val(c[3])} {val(c[4])} {val(c[5])} {val(c[6])} ({[0.0]*n} : {LF})) (feq {val(c[7])})")
t=tests('dlaqr5.rs')
for blk in t.split('#[test]')[1:]:
    v={m.group(1):' '.join(m.group(2).split()).replace(', ]',']').replace(',]',']') for m in re.finditer(r'let (\w+) = (.*?);\s*\n',blk,re.S)}
    call=re.search(r'dlaqr5\((.*?)\);',blk,re.S).group(1)
    args=split(' '.join(call.split()))
    L=[]
    for a in args:
        if a in v: L.append(lst(v[a].replace('&mut ',''),LF if a in('sr','si') else LLF))
        else: L.append(a)
    e=' && '.join(f"feq2 {val(v['expected_'+k])} r.{k}" for k in ['h','z','v','u','wv','wh'])
    o.append(f"#guard okIs (dlaqr5 (F := Float) {' '.join(L)}) (fun r => {e})")
for c in cases('dlarfg.rs'):
    o.append(f"#guard okIs (dlarfg (F := Float) {c[0]} {val(c[1])} {lst(c[2],LF)} {c[3]}) (fun r => r.2.2 == {val(c[4])})")
for c in cases('ieeeck.rs'):
    o.append(f"#guard ieeeck (F := Float) {c[0]} {neg(c[1])} {neg(c[2])} == {c[3]}")
for c in cases('ilaenv.rs'):
    o.append(f"#guard okIs (ilaenv ({c[0]}) {c[1]}.toList {c[2]} {c[3]} {c[4]} {c[5]}) (· == {c[6]})")
for c in cases('iparmq.rs'):
    o.append(f"#guard okIs (iparmq {c[0]} {c[1]}.toList {c[2]} {c[3]}) (· == {c[4]})")
E2={'E':'epsilon * 0.5','S':'minPositive','B':'2.0','P':'epsilon * 0.5 * 2.0','N':'53.0','R':'1.0','M':'-1021.0','U':'minPositive','L':'1024.0','O':'maxValue'}
for k,v in E2.items():
    o.append(f"#guard (dlamch '{k}' : Float) == ({v} : Float)")
# arrays
for c in cases('array/display.rs'):
    m=re.search(r'& \[(.*?)\](?:, (\d), (\d))?\)',c[0])
    d='['+m.group(1)+']'
    a=f"(pure (FA.vector {d}) : R (FA Float))" if not m.group(2) else f"(FA.matrix (F := Float) {d} {m.group(2)} {m.group(3)})"
    o.append(f"#guard okIs (do render (← display none (← {a}))) (· == {c[1]})")
hdr='''import Verif.Inst.Float
import Verif.Model.Qr5

/-!
# Running the crate's own unit-test vectors on the model

Generated by /verif/tools/gen_tests.py from the `#[case(..)]`s in /repo/src.  These are *tests* of the
model against the expected values recorded in the repository (evaluated with hardware `f64`); they
are no proofs and no theorem depends on them.
-/

namespace Verif.Tests
open Verif Scalar

def okIs {α : Type} (x : R α) (p : α → Bool) : Bool :=
  (match x .debug with | .ok a => p a | _ => false) &&
  (match x .release with | .ok a => p a | _ => false)

def feq (a b : List Float) : Bool := a.length == b.length && (List.zipWith (· == ·) a b).all id
def feq2 (a b : List (List Float)) : Bool := a.length == b.length && (List.zipWith feq a b).all id
def near (eps a b : Float) : Bool := (a - b).abs < eps

/-- Renders the pieces of `display` for one-decimal values (`toString` prints six decimals). -/
def render (ps : List (Piece Float)) : R String :=
  pure (String.join (ps.map fun
    | .text s => s
    | .num _ x => (toString x).dropEnd 5 |>.toString))

'''
open('/verif/lean/Verif/Tests.lean','w').write(hdr+'\n'.join(o)+'\n\nend Verif.Tests\n')
print(len(o))
