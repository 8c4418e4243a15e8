#!/usr/bin/env python3
"""Write lean/Verif/Lemmas/P256Run.lean: for every arithmetic routine of Model/P256Code, the
symbolic execution of its instructions, one tactic per instruction."""
import sys,os
sys.path.insert(0,os.path.dirname(__file__))
import asm2lean as A
LOW={'acc':0}
class Run:
    """symbolic registers and the tactic script of one routine"""
    def __init__(s,name,vname=None):
        s.name=name; s.low=name[0].lower()+name[1:]
        s.reg={r:'s.'+r.lower() for r in A.REG}
        s.n=0; s.out=[]; s.seg=[]; s.last=[]
        # instructions per segment
        S=A.segments(name); s.segs=[]
        items=[(ln,pl) for ln,kd,pl in A.routines[name] if kd=='i' and pl[0] not in('ret','jmp')]
        k=0
        for (a,b,t,it,isv) in S:
            s.segs.append([x[1] for x in items[k:k+len(it)]]); k+=len(it)
        assert k==len(items)
    def addr(s,o):
        base=s.reg[o[1]]
        return '%s + %d#64'%(base,o[2])
    def val(s,o):
        k=o[0]
        if k=='reg': return s.reg[o[1]]
        if k=='imm': return '%d#64'%o[1]
        if k=='mem': return '(s.mem (%s))'%s.addr(o)
        if k=='arg': return 's.arg %d'%o[1]
        if k=='glob': return '(GLOB %s %d)'%(o[1],o[2])
        raise Exception(o)
    def start(s,j):
        """unfold segment j"""
        s.out.append('  simp only [%s_%d, List.cons_append, List.nil_append]'%(s.low,j+1))
    def step(s,x):
        op=x[0]; r=s.reg
        if op in('MOVQ','mov0bp'):
            if op=='mov0bp': r['BP']='0#64'
            elif x[2][0]=='reg': r[x[2][1]]=s.val(x[1])
            s.out.append('  xmov'); return None
        if op=='XORQ' and x[1]==x[2]:
            r[x[1][1]]='0#64'; s.out.append('  xxor'); return None
        if op=='TESTQ' and x[1]==x[2]: s.out.append('  xtest'); return None
        if op.startswith('CMOVQ'):
            s.out.append('  x'+op[5:].lower())
            d=x[2][1]
            r[d]='(IF %s THEN %s ELSE %s)'%(op[5:],s.val(x[1]),r[d])
            return None
        s.n+=1; n=s.n
        if op in('ADDQ','ADCQ','SUBQ','SBBQ'):
            s.out.append('  x%s r%d c%d e%d'%(op[:3].lower(),n,n,n)); r[x[2][1]]='r%d'%n
            return n
        if op=='MULQ':
            s.out.append('  xmul l%d h%d e%d'%(n,n,n)); r['AX']='l%d'%n; r['DX']='h%d'%n; return n
        if op in('SHLQ','SHRQ'):
            s.out.append('  x%s r%d e%d'%(op[:3].lower(),n,n)); r[x[2][1]]='r%d'%n; return n
        raise Exception(x)
    def run(s,j):
        s.start(j); ns=[]
        for x in s.segs[j]:
            k=s.step(x)
            if k: ns.append(k)
        return ns
    def clear(s,ns): s.out.append('  clear '+' '.join('e%d'%k for k in ns))
    def t(s,*l): s.out+=['  '+x for x in l]
WT=['','B₁ * ','B₂ * ','B₃ * ','B₄ * ','B₅ * ']
def limbs(ws): return ' + '.join(WT[i]+'z '+w for i,w in enumerate(ws))
def E(ns): return ' '.join('e%d'%k for k in ns)
X=['(s.mem (s.arg 24 + %d#64))'%(8*i) for i in range(4)]
def bounds(l): return ', '.join(l)

def header():
    return '''/-
Generated by tools/genasm.py.  Symbolic execution of the arithmetic routines of
sm2/p256_asm_amd64.s: one tactic per instruction, then the lemmas of Lemmas/Limbs.
-/
import Verif.Lemmas.MontZ

namespace Verif.X64.P256

set_option linter.unusedSimpArgs false

seal exec step

'''
def mulroutine(name,ordm):
    R=Run(name); low=R.low
    Y=['(s.mem (s.arg 48 + %d#64))'%(8*i) for i in range(4)]
    q='nZ' if ordm else 'pZ'
    ACC=['R8','R9','R10','R11','R12','R13']
    o=R.out
    R.run(0)
    names=[]
    facts=[]
    ms=[]
    for i in range(4):
        ns=R.run(1+2*i)
        acc=[ACC[(i+k)%6] for k in range(6)]
        if i==0:
            a,b,c,d,e,f,g,h,k,l=ns
            R.t('have q1 := mac1 e%d e%d e%d'%(b,c,d),'have q2 := mac1 e%d e%d e%d'%(e,f,g),'have q3 := mac1 e%d e%d e%d'%(h,k,l))
            cur=[R.reg[x] for x in acc[:5]]
            R.t('have T0 : %s ='%limbs(cur),'    %s := by'%' + '.join(WT[k]+'(z %s * z %s)'%(X[k],Y[0]) for k in range(4)),
                '  linear_combination e%d + B₁ * q1 + B₂ * q2 + B₃ * q3'%a)
            R.t('clear q1 q2 q3'); R.clear(ns)
            T=cur; top=None
        else:
            prevT=T; prevtop=toptext
            R.t('have q1 := mac1 %s'%E(ns[0:3]),'have q2 := mac2 %s'%E(ns[3:8]),'have q3 := mac2 %s'%E(ns[8:13]),
                'have q4 := mac3 %s (by rw [%s]; norm_num)'%(E(ns[13:19]),prevtop))
            cur=[R.reg[x] for x in acc]
            R.t('have T%d : %s ='%(i,limbs(cur)),'    %s +'%limbs(prevT),'    (%s) := by'%' + '.join(WT[k]+'(z %s * z %s)'%(X[k],Y[i]) for k in range(4)),
                '  rw [%s] at q4'%prevtop,
                '  linear_combination q1 + B₁ * q2 + B₂ * q3 + B₃ * q4')
            R.t('clear q1 q2 q3 q4'); R.clear(ns)
            T=cur
            # top word small
            R.t('have b%d : z %s ≤ 2 := by'%(i,T[5]),
                '  linarith only [%s]'%', '.join(['T%d'%i]+['z_nonneg %s'%w for w in T[:5]]+['mulz_le %s %s'%(x,Y[i]) for x in X]+['z_lt %s'%w for w in prevT[:4]]+['w%d'%(i-1)]))
        # reduction
        low0=T[0]
        t6=T if i>0 else T+['0#64']
        ns=R.run(2+2*i)
        acc2=[ACC[(i+1+k)%6] for k in range(6)]
        new=[R.reg[x] for x in acc2[:5]]
        hb='(b%d.trans (by norm_num))'%i if i>0 else '(by rw [z_zero]; norm_num)'
        fn='redOrd' if ordm else 'redMul'
        # the step that adds 0 to the known zero top
        if ordm:
            mname='l%d'%ns[0]
            R.t('obtain ⟨y%d, S%d⟩ := redOrd (a5 := %s) %s %s'%(i,i,t6[5],E(ns),hb))
        else:
            mname=low0
            R.t('have S%d := redMul (a5 := %s) %s %s'%(i,i,E(ns),hb) if False else 'have S%d := redMul (a5 := %s) %s %s'%(i,t6[5],E(ns),hb))
        R.clear(ns)
        if i==0: R.t('rw [z_zero] at S0')
        ms.append(mname)
        # bound of the new top word
        if i<4:
            prevb=[]
            R.t('have w%d : z %s ≤ 5 := by'%(i,new[4]),
                '  linarith only [%s]'%', '.join(['S%d'%i]+['z_nonneg %s'%w for w in new[:4]]+['z_lt %s'%w for w in T]+['z_lt %s'%mname,'z_nonneg %s'%mname]+(['b%d'%i] if i>0 else [])))
        if i<3:
            # next top register is zero
            treg=R.reg[acc2[5]]
            toptext='z_zero' if treg=='0#64' else 'y%d'%i
        T=new
    # copy
    if not name: pass
    ns=R.run(9)
    ns=R.run(10)
    R.t('refine wp_nil ?_')
    D='(s.arg 0)'
    R.t('refine h _ _ _ _ _ rfl (montFinish%s (m0 := %s) (m1 := %s) (m2 := %s)'%('N' if ordm else 'P',ms[0],ms[1],ms[2]),'  (m3 := %s) (mul_lt_sq _ _ _) ?_ %s)'%(ms[3],E(ns)))
    R.t('push_cast','rw [← rdZ_eq, ← rdZ_eq]','unfold rdZ',
        'linear_combination (T0 + B₁ * T1 + B₂ * T2 + B₃ * T3 + S0 + B₁ * S1 + B₂ * S2 + B₃ * S3)')
    return '''theorem %s_wp {Q : St → Prop} {s : St}
    (h : ∀ (w0 w1 w2 w3 : W) (s' : St),
      s'.mem = upd (upd (upd (upd s.mem (s.arg 0 + 0#64) w0) (s.arg 0 + 8#64) w1)
        (s.arg 0 + 16#64) w2) (s.arg 0 + 24#64) w3 →
      z w0 + B₁ * z w1 + B₂ * z w2 + B₃ * z w3 =
        ((%s (rd4 s.mem (s.arg 24)) (rd4 s.mem (s.arg 48)) : ℕ) : ℤ) → Q s') :
    Q (exec %s s) := by
  unfold %s
  simp only [List.append_assoc]
%s
'''%(low,'mulN' if ordm else 'mulP',low,low,'\n'.join(o))

def sqrroutine(name):
    """Sqr, MulInternal, SqrInternal: the 512-bit product, then four reductions, then the high half"""
    R=Run(name); low=R.low; o=R.out
    fn=R.segs
    intern=name.endswith('Internal')
    if not intern: R.run(0)
    if name=='Sqr':
        x=X; accs=['R8','R9','R10','R11']; highs=['R12','R13','CX','SI']; base=1; rr='R14'
    elif name=='SqrInternal':
        x=['s.r10','s.r11','s.r12','s.r13']; accs=['BX','CX','R8','R9']; highs=['R14','R15','DI','SI']; base=0
    else:
        x=['s.r10','s.r11','s.r12','s.r13']; y=['s.r14','s.r15','s.di','s.si']; accs=['BX','CX','R8','R9']; highs=['R10','R11','R12','R13']
    def pr(a,b): return '(z %s * z %s)'%(a,b)
    if name=='MulInternal':
        for i in range(4):
            ns=R.run(i)
            if i==0:
                R.t('have q1 := mac1 %s'%E(ns[1:4]),'have q2 := mac1 %s'%E(ns[4:7]),'have q3 := mac1 %s'%E(ns[7:10]))
                cur=[R.reg[a] for a in accs+['R10']]
                R.t('have T : %s ='%limbs(cur),'    %s := by'%' + '.join(WT[k]+pr(x[0],y[k]) for k in range(4)),'  linear_combination e%d + B₁ * q1 + B₂ * q2 + B₃ * q3'%ns[0],'clear q1 q2 q3')
                T=cur
            else:
                R.t('have q1 := mac1 %s'%E(ns[0:3]),'have q2 := mac2 %s'%E(ns[3:8]),'have q3 := mac2 %s'%E(ns[8:13]),'have q4 := mac2 %s'%E(ns[13:18]))
                cur=[R.reg[a] for a in accs+highs[:i+1]]
                W7=['','B₁ * ','B₂ * ','B₃ * ','B₄ * ','B₅ * ','B₆ * ','B₇ * ']
                lim=' + '.join(W7[k]+'z '+w for k,w in enumerate(cur))
                rhs=' + '.join(W7[a+b]+pr(x[a],y[b]) for a in range(i+1) for b in range(4))
                R.t('replace T : %s ='%lim,'    %s := by'%rhs,'  linear_combination T + %sq1 + %sq2 + %sq3 + %sq4'%(WT[i],W7[i+1],W7[i+2],W7[i+3]),'clear q1 q2 q3 q4')
                T=cur
            R.clear(ns)
        nb=4
        rhs=' + '.join(['(%s) * (%s)'%(limbs(x),limbs(y))])
        R.t('replace T : %s ='%' + '.join(W7[k]+'z '+w for k,w in enumerate(T)),'    %s := by'%rhs,'  linear_combination T')
    else:
        k0=1 if name=='Sqr' else 0
        W7=['','B₁ * ','B₂ * ','B₃ * ','B₄ * ','B₅ * ','B₆ * ','B₇ * ']
        if name=='Sqr':
            n1=R.run(1);n2=R.run(2);n3=R.run(3); ns=n1+n2+n3
        else: ns=R.run(0)
        # x0*x1; x0*x2(3); x0*x3(3); x1*x2(3); x1*x3(5); x2*x3(3)
        R.t('have q1 := mac1 %s'%E(ns[1:4]),'have q2 := mac1 %s'%E(ns[4:7]),'have q3 := mac1 %s'%E(ns[7:10]),'have q4 := mac2 %s'%E(ns[10:15]),'have q5 := mac1 %s'%E(ns[15:18]))
        cur=[R.reg[a] for a in accs[1:]+highs[:3]]
        P=[(0,1,0),(0,2,1),(0,3,2),(1,2,2),(1,3,3),(2,3,4)]
        cr=' + '.join(WT[w]+'(z %s * z %s)'%((x[b],x[a]) if name=='Sqr' else (x[a],x[b])) for a,b,w in P)
        R.t('have T : %s ='%limbs(cur),'    %s := by'%cr,'  linear_combination e%d + B₁ * q1 + B₂ * q2 + B₂ * q3 + B₃ * q4 + B₄ * q5'%ns[0],'clear q1 q2 q3 q4 q5')
        R.clear(ns)
        ns=R.run(4 if name=='Sqr' else 1)
        R.t('have hk := carry_zero e%d (by linarith only [bz_le c%d])'%(ns[6],ns[5]),'rw [hk] at e%d'%ns[6])
        cur=[R.reg[a] for a in accs[1:]+highs]
        W6=['','B₁ * ','B₂ * ','B₃ * ','B₄ * ','B₅ * ','B₆ * ']
        lim=' + '.join(W6[k]+'z '+w for k,w in enumerate(cur)) if R.reg[highs[3]].startswith('r') else None
        topr='R15' if name=='Sqr' else 'SI'
        cur=[R.reg[a] for a in accs[1:]+highs[:3]+[topr]]
        lim=' + '.join(W6[k]+'z '+w for k,w in enumerate(cur))
        R.t('replace T : %s ='%lim,'    2 * (%s) := by'%cr,'  linear_combination 2 * T + e%d + B₁ * e%d + B₂ * e%d + B₃ * e%d + B₄ * e%d + B₅ * e%d + B₆ * e%d'%tuple(ns))
        R.t('have ht : z %s ≤ 1 := by linarith only [e%d, bz_le c%d]'%(cur[-1],ns[6],ns[5]))
        R.t('clear hk'); R.clear(ns)
        pre=cur
        ns=R.run(5 if name=='Sqr' else 2)
        # m0 ; m1 a b c ; m2 a b c ; m3 a b c
        m0=ns[0]; g=[ns[1:5],ns[5:9],ns[9:13]]
        for j in range(2):
            R.t('have k%d := carry_zero e%d (by linarith only [hi_le e%d, bz_le c%d])'%(j,g[j][3],g[j][0],g[j][2]),'rw [k%d] at e%d'%(j,g[j][3]))
        cur=[R.reg[a] for a in accs+highs[:3]+[topr if name=='Sqr' else 'SI']]
        lim=' + '.join(W7[k]+'z '+w for k,w in enumerate(cur))
        full='(%s) * (%s)'%(limbs(x),limbs(x))
        e=g
        R.t('have U : %s + B₈ * bz c%d ='%(lim,g[2][3]),'    %s := by'%full,
            '  linear_combination e%d + B₁ * T + B₁ * e%d + B₂ * (e%d + e%d) + B₃ * e%d + B₃ * e%d + B₄ * (e%d + e%d) + B₅ * e%d + B₅ * e%d + B₆ * (e%d + e%d) + B₇ * e%d'%(
              m0,g[0][1],g[0][0],g[0][2],g[0][3],g[1][1],g[1][0],g[1][2],g[1][3],g[2][1],g[2][0],g[2][2],g[2][3]))
        R.t('have hc : bz c%d = 0 := no_carry_sq %s U'%(g[2][3],' '.join('_' for _ in range(0))))
        R.t('rw [hc, mul_zero, add_zero] at U','clear T ht k0 k1 hc'); R.clear(ns)
        R.t('have T := U','clear U')
        T=cur
        nb=6 if name=='Sqr' else 3
        y=x
    Ts=T
    cur=T[:4]; high=T[4:]
    ms=[]
    for i in range(4):
        if i==3: pass
        ns=R.run(nb+i)
        ms.append(cur[0])
        new=[R.reg[accs[(i+1+k)%4]] for k in range(4)]
        if i<3: R.t('have S%d := (redInt %s).1'%(i,E(ns)))
        else: R.t('obtain ⟨S3, hb⟩ := redInt %s'%E(ns))
        R.clear(ns)
        lastc='c%d'%ns[-1]
        cur=new
    # accs order after 4 rotations: accs itself
    ns=R.run(nb+4)
    hs=[R.reg[a] for a in (highs if name!='Sqr' else accs)]
    top=R.reg['R14'] if name=='Sqr' else R.reg['BP']
    R.t('rw [hb, add_zero] at e%d'%ns[0] if True else '')
    R.t('have k5 := carry_zero e%d (by linarith only [bz_le c%d])'%(ns[4],ns[3]),'rw [k5] at e%d'%ns[4])
    R.t('have V : B₄ * (%s + B₄ * z %s) ='%(limbs(hs),top),'    (%s) * (%s) + (%s) * pZ := by'%(limbs(x),limbs(y),limbs(ms)),
        '  linear_combination T + S0 + B₁ * S1 + B₂ * S2 + B₃ * S3 + B₄ * e%d + B₅ * e%d + B₆ * e%d + B₇ * e%d + B₈ * e%d'%tuple(ns))
    R.t('clear T S0 S1 S2 S3 k5 hb'); R.clear(ns)
    if name=='Sqr':
        ns=R.run(nb+5)
        R.t('refine wp_nil ?_')
        R.t('refine h _ _ _ _ _ rfl (montFinishP (m0 := %s) (m1 := %s) (m2 := %s)'%tuple(ms[:3]),'  (m3 := %s) (mul_lt_sq _ _ _) ?_ %s)'%(ms[3],E(ns)))
        R.t('push_cast','rw [← rdZ_eq]','unfold rdZ','exact V')
        return """theorem %s_wp {Q : St → Prop} {s : St}
    (h : ∀ (w0 w1 w2 w3 : W) (s' : St),
      s'.mem = upd (upd (upd (upd s.mem (s.arg 0 + 0#64) w0) (s.arg 0 + 8#64) w1)
        (s.arg 0 + 16#64) w2) (s.arg 0 + 24#64) w3 →
      z w0 + B₁ * z w1 + B₂ * z w2 + B₃ * z w3 =
        ((sqrP (rd4 s.mem (s.arg 24)) : ℕ) : ℤ) → Q s') :
    Q (exec %s s) := by
  unfold %s
  simp only [List.append_assoc]
%s
"""%(low,low,low,'\n'.join(o))
    R.run(nb+5); ns=R.run(nb+6); R.run(nb+7)
    R.t('refine h _ _ _ _ _ _ _ _ _ _ _ _ _ %s(montFinishP (t := val4 %s * val4 %s)'%('_ _ _ _ ' if name=='SqrInternal' else '',' '.join(x),' '.join(y)),'  (m0 := %s) (m1 := %s) (m2 := %s) (m3 := %s) (val4_mul_lt _ _ _ _ _ _ _ _) ?_ %s)'%(*ms,E(ns)))
    R.t('rw [Int.natCast_mul, val4_cast%s]'%(', val4_cast' if x!=y else ''),'exact V')
    clob=['ax','bx','cx','dx','bp','r8','r9']+(['r14','r15','di','si'] if name=='SqrInternal' else [])
    fnv='sqrP (val4 s.r10 s.r11 s.r12 s.r13)' if name=='SqrInternal' else 'mulP (val4 s.r10 s.r11 s.r12 s.r13) (val4 s.r14 s.r15 s.di s.si)'
    return """theorem %s_wp {Q : St → Prop} {s : St} {rest : List Instr}
    (h : ∀ (w0 w1 w2 w3 %s : W) (cf zf : Bool),
      z w0 + B₁ * z w1 + B₂ * z w2 + B₃ * z w3 =
        ((%s : ℕ) : ℤ) →
      Q (exec rest { s with %s,
                            r10 := w0, r11 := w1, r12 := w2, r13 := w3, cf := cf, zf := zf })) :
    Q (exec (%s ++ rest) s) := by
  unfold %s
  simp only [List.append_assoc]
%s
"""%(low,' '.join(clob),fnv,', '.join('%s := %s'%(c,c) for c in clob),low,low,'\n'.join(o))

def frommont():
    R=Run('FromMont'); low=R.low; o=R.out
    R.run(0)
    A_=['R8','R9','R10','R11','R12','R13','R8','R9']
    cur=[R.reg[a] for a in A_[:4]]; ms=[]
    for i in range(4):
        ns=R.run(1+i); ms.append(cur[0])
        R.t('have S%d := redFrom %s'%(i,E(ns[:13])))
        R.clear(ns[:13])
        if i<3: cur=[R.reg[a] for a in A_[i+1:i+5]]
        else:
            f=ns[13:]; cur=['r%d'%k for k in ns[9:13]]
    R.t('have V : B₄ * (%s) ='%limbs(cur),'    (%s) + (%s) * pZ := by'%(limbs(X),limbs(ms)),'  linear_combination S0 + B₁ * S1 + B₂ * S2 + B₃ * S3')
    R.t('refine wp_nil ?_','refine h _ _ _ _ _ rfl (montFinish4 (m0 := %s) (m1 := %s) (m2 := %s)'%tuple(ms[:3]),'  (m3 := %s) ?_ ?_ %s)'%(ms[3],E(f)))
    R.t('· have := rd4_lt s.mem (s.arg 24)','  refine lt_of_lt_of_eq (Int.ofNat_lt.mpr this) ?_','  norm_num')
    R.t('· rw [← rdZ_eq]','  unfold rdZ','  exact V')
    return """theorem fromMont_wp {Q : St → Prop} {s : St}
    (h : ∀ (w0 w1 w2 w3 : W) (s' : St),
      s'.mem = upd (upd (upd (upd s.mem (s.arg 0 + 0#64) w0) (s.arg 0 + 8#64) w1)
        (s.arg 0 + 16#64) w2) (s.arg 0 + 24#64) w3 →
      z w0 + B₁ * z w1 + B₂ * z w2 + B₃ * z w3 =
        ((fromMontP (rd4 s.mem (s.arg 24)) : ℕ) : ℤ) → Q s') :
    Q (exec fromMont s) := by
  unfold fromMont
  simp only [List.append_assoc]
%s
"""%('\n'.join(o))
if __name__=='__main__':
    want=sys.argv[2:] or ['Mul','OrdMul','Sqr','FromMont','MulInternal','SqrInternal']
    out=header()
    for w in want:
        out+=(mulroutine(w,w=='OrdMul') if w in('Mul','OrdMul') else frommont() if w=='FromMont' else sqrroutine(w))+'\n'
    out+='end Verif.X64.P256\n'
    open(sys.argv[1],'w').write(out)
