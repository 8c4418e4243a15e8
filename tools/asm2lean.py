#!/usr/bin/env python3
"""Translate the routines of /repo/sm2/p256_asm_amd64.s to Lean lists of instructions.

Only a syntactic translation: macros of the file are expanded, operands are put in the form of
Verif.X64.Opd, every routine is cut into parts at its labels and comments.
Output: lean/Verif/Model/P256Code.lean
"""
import re,sys
SRC='/repo/sm2/p256_asm_amd64.s'
text=open(SRC).read()
# block comments -> blank lines
text=re.sub(r'/\*.*?\*/',lambda m:'\n'*m.group(0).count('\n'),text,flags=re.S)
lines=text.split('\n')
REG=['AX','BX','CX','DX','SI','DI','BP']+['R%d'%i for i in range(8,16)]
macros={}   # name -> (params or None, body)
VM={'LDacc':'.ldacc','LDt':'.ldt','ST':'.st','STt':'.stt'}
routines={} # name -> list of (line, kind, payload)
cur=None
def ev(e):
    assert re.fullmatch(r'[-0-9a-fA-Fx+*() ]*',e),e
    return eval(e) if e.strip() else 0
def expand(tok,depth=0):
    """expand object-like register macros in an operand"""
    def rep(m):
        n=m.group(0)
        if n in macros and macros[n][0] is None and ';' not in macros[n][1]: return macros[n][1]
        return n
    for _ in range(3): tok=re.sub(r'[A-Za-z_][A-Za-z_0-9]*',rep,tok)
    return tok
def opd(o):
    o=o.strip()
    m=re.fullmatch(r'([A-Za-z_][A-Za-z0-9_]*)\((.*)\)',o)
    if m and m.group(1) in macros and macros[m.group(1)][0]:
        p,b=macros[m.group(1)]
        o=re.sub(r'\b%s\b'%p,m.group(2),b)
    o=expand(o)
    if o in REG: return ('reg',o)
    if re.fullmatch(r'X\d+',o): return ('x',int(o[1:]))
    if o.startswith('$'): return ('imm',ev(o[1:])%2**64)
    m=re.fullmatch(r'p256_sm2(\w+)<>(?:\+(0x[0-9a-f]+))?\(SB\)',o)
    if m: return ('glob',m.group(1),int(m.group(2) or '0',16))
    m=re.fullmatch(r'\w+\+(\d+)\(FP\)',o)
    if m: return ('arg',int(m.group(1)))
    m=re.fullmatch(r'(.*)\((\w+)\)',o)
    if m:
        off=ev(m.group(1).strip() or '0')
        if m.group(2)=='SP': return ('stk',off)
        assert m.group(2) in REG,o
        return ('mem',m.group(2),off)
    raise Exception('operand '+o)
def instr(s,ln):
    s=s.strip()
    m=re.match(r'(\S+)\s*(.*)',s); op,args=m.group(1),m.group(2)
    if op in VM: return [('v',VM[op],args.strip().strip('()').strip())]
    if op in macros and macros[op][0] is None and ';' in macros[op][1]+';' and op not in REG and op.startswith('p256_sm2') or op in('acc2t','t2acc'):
        return [('macro',op)]
    if op=='BYTE': return [('byte',)]
    if op=='CALL':
        return [('call',re.match(r'p256_sm2(\w+)\(SB\)',args).group(1))]
    if op=='JMP': return [('jmp',re.match(r'·p256_sm2(\w+)\(SB\)',args).group(1))]
    if op=='JNE': return [('jne',args)]
    if op=='RET': return [('ret',)]
    if ':' in args:   # SHRQ $1, a:b
        a=re.match(r'\$(\d+),\s*(\w+):(\w+)',args)
        return [('shrd',int(a.group(1)),opd(a.group(2)),opd(a.group(3)))]
    ops=[opd(a) for a in re.split(r',(?![^()]*\))',args)] if args.strip() else []
    return [(op,)+tuple(ops)]
i=0
expanded={}
while i<len(lines):
    raw=lines[i]; ln=i+1
    m=re.match(r'#define\s+(\w+)(?:\((\w+)\))?\s*(.*)',raw)
    if m:
        body=m.group(3); 
        while body.rstrip().endswith('\\'):
            i+=1; body=body.rstrip()[:-1]+' '+lines[i]
        body=re.sub(r'//.*','',body).strip()
        macros[m.group(1)]=(m.group(2),body)
        i+=1; continue
    m=re.match(r'#undef\s+(\w+)',raw)
    if m: macros.pop(m.group(1),None); i+=1; continue
    if raw.startswith('#') or raw.startswith('DATA') or raw.startswith('GLOBL'): i+=1; continue
    m=re.match(r'TEXT ·?p256_sm2(\w+)\(SB\)',raw)
    if m:
        cur=m.group(1); assert cur not in routines; routines[cur]=[(ln,'text',None)]; i+=1; continue
    cm=re.match(r'\s*//\s*(.*)',raw)
    code=re.sub(r'//.*','',raw).strip()
    if cur and code=='' and cm and not re.match(r'[A-Z]{3,}Q? ',cm.group(1)) and not cm.group(1).startswith('/') and not cm.group(1).startswith('func'):
        routines[cur].append((ln,'comment',cm.group(1)))
    elif cur and code:
        if re.match(r'\w+:$',code): routines[cur].append((ln,'label',code[:-1]))
        else:
            if code.startswith('BYTE'):
                assert 'MOVQ $0, BP' in raw
                routines[cur].append((ln,'i',('mov0bp',)))
            else:
                for part in code.split(';'):
                    if not part.strip(): continue
                    for ins in instr(part,ln):
                        if ins[0]=='macro':
                            name=ins[1]
                            V={'p256_sm2MulBy2Inline':'.mul2','p256_sm2AddInline':'.add','acc2t':'.acc2t','t2acc':'.t2acc'}
                            routines[cur].append((ln,'i',('v',V[name],None)))
                            if name not in expanded:
                                L=[]
                                for q in macros[name][1].split(';'):
                                    if q.strip(): L+=instr(q,ln)
                                expanded[name]=(ln,L)
                        elif ins[0]=='v':
                            p,b=macros[ins[2]]; off=opd(re.sub(r'\b%s\b'%p,'0',b))
                            assert off[0]=='stk' and off[1]%32==0
                            routines[cur].append((ln,'i',('v',ins[1],off[1]//32)))
                            nm={'.ldacc':'LDacc','.ldt':'LDt','.st':'ST','.stt':'STt'}[ins[1]]
                            pp,bb=macros[nm]
                            L=[]
                            for q in bb.split(';'):
                                q=re.sub(r'\b%s\b'%pp,ins[2],q)
                                L+=instr(q.strip(),ln)
                            expanded.setdefault(nm,{})[off[1]//32]=L
                        else: routines[cur].append((ln,'i',ins))
    i+=1
def lo(o):
    k=o[0]
    if k=='reg': return '.r .'+o[1].lower()
    if k=='imm': return '.i %s'%(hex(o[1]) if o[1]>9 else o[1])
    if k=='mem': return '.m .%s %d'%(o[1].lower(),o[2])
    if k=='stk': return '.s %d'%o[1]
    if k=='arg': return '.a %d'%o[1]
    if k=='glob': return '.g (.%s) %d'%(o[1],o[2])
    raise Exception(o)
def p(o): return '(%s)'%lo(o)
NAMES={'ADDQ':'add','ADCQ':'adc','SUBQ':'sub','SBBQ':'sbb','XORQ':'xor','ANDQ':'and','TESTQ':'test'}
def li(x):
    op=x[0]
    if op=='mov0bp': return '.mov (.i 0) (.r .bp)'
    if op=='call': return '.call .%s'%(x[1][0].lower()+x[1][1:])
    if op=='shrd': return '.shrd %d %s %s'%(x[1],p(x[3]),p(x[2]))  # SHRQ $n, d:s
    if op in NAMES: return '.%s %s %s'%(NAMES[op],p(x[1]),p(x[2]))
    if op=='MULQ': return '.mul %s'%p(x[1])
    if op in('SHLQ','SHRQ'): return '.%s %d %s'%(op[:3].lower(),x[1][1],p(x[2]))
    if op=='DECQ': return '.dec %s'%p(x[1])
    if op=='BSWAPQ': return '.bswap %s'%p(x[1])
    if op.startswith('CMOVQ'): return '.cmov .%s %s %s'%(op[5:].lower(),p(x[1]),p(x[2]))
    if op=='MOVQ':
        if x[2][0]=='x': return '.movqx %s %d'%(p(x[1]),x[2][1])
        return '.mov %s %s'%(p(x[1]),p(x[2]))
    if op=='MOVL':
        if x[2][0]=='x': return '.movlx %s %d'%(p(x[1]),x[2][1])
        return '.movl %s %s'%(p(x[1]),p(x[2]))
    if op=='MOVOU':
        if x[1][0]=='x' and x[2][0]=='x': return '.movxx %d %d'%(x[1][1],x[2][1])
        if x[1][0]=='x': return '.stx %d %s'%(x[1][1],p(x[2]))
        return '.ldx %s %d'%(p(x[1]),x[2][1])
    if op in('PXOR','PAND','PCMPEQL','PADDL','PSUBL'): return '.%s %d %d'%(op.lower(),x[1][1],x[2][1])
    if op=='PANDN':
        if x[1][0]=='x': return '.pandn %d %d'%(x[1][1],x[2][1])
        return '.pandnm %s %d'%(p(x[1]),x[2][1])
    if op=='PSHUFD':
        assert x[1][1]==0
        return '.pshufd0 %d %d'%(x[2][1],x[3][1])
    raise Exception(x)

VC={'mulInternal':'.mul','sqrInternal':'.sqr','subInternal':'.sub'}
CUT={'MulInternal':[('acc5','t0'),('acc6','t0'),('acc7','t0')]}
def acc2t_at(L,k):
    want=[('R10','R14'),('R11','R15'),('R12','DI'),('R13','SI')]
    return len(L)>=k+4 and all(L[k+j][1]=='i' and L[k+j][2]==('MOVQ',('reg',a),('reg',b)) for j,(a,b) in enumerate(want))
def segments(name):
    """list of (first line, last line, title, [payload])"""
    out=[]; cur=None; kind=None; title=None
    L=routines[name]; k=0
    brk=set(CUTLINES.get(name,[]))
    def new(ln,t=None):
        nonlocal cur
        cur=[ln,ln,t,[],None]; out.append(cur)
    pend=None
    while k<len(L):
        ln,kd,pl=L[k]
        if kd in('text',): pend=(None,); k+=1; continue
        if kd=='comment': pend=(pl,); k+=1; continue
        if kd=='label': pend=('label '+pl,); k+=1; continue
        if pl[0] in('ret','jmp'): k+=1; continue
        if pl[0]=='jne': pend=('after loop',); k+=1; continue
        n=1
        if name.startswith('Point') and acc2t_at(L,k): isv=True; item='.acc2t'; n=4
        elif pl[0]=='v': isv=True; item=pl[1]+('' if pl[2] is None else ' %d'%pl[2])
        elif pl[0]=='call': isv=True; item=VC[pl[1][0].lower()+pl[1][1:]]
        else: isv=False; item=li(pl)
        if pend is not None or cur is None or cur[4]!=isv or ln in brk:
            if not(pend is not None and isv and cur and cur[4]==isv): new(ln,pend[0] if pend else None)
            pend=None
        cur[4]=isv; cur[1]=L[k+n-1][0]; cur[3].append(item); k+=n
    return out
CUTLINES={'MulInternal':[]}
for (ln,kd,pl) in routines['MulInternal']:
    pass
prev=None
for idx,(ln,kd,pl) in enumerate(routines['MulInternal']):
    if kd=='i' and pl[0]=='MOVQ' and pl[2]==('reg','AX') and pl[1][0]=='reg' and pl[1][1] in('R11','R12','R13'):
        if pl[1][1]!=prev: CUTLINES['MulInternal'].append(ln); prev=pl[1][1]
# fixed cuts: just before the flags of the last subtraction etc. are given by comments
def emit():
    o=[]
    o.append("""/-
Generated by tools/asm2lean.py from sm2/p256_asm_amd64.s: the instructions of its routines, cut
at the comments of the file.  CALL and RET are inlined.  Do not edit.
-/
import Verif.Model.X64

namespace Verif.X64.P256
""")
    for name in ['BigToLittle','MovCond','NegCond','Sqr','Mul','FromMont','Select','SelectBase','OrdMul','SubInternal','MulInternal','SqrInternal']:
        S=segments(name); low=name[0].lower()+name[1:]
        for j,(a,b,t,items,isv) in enumerate(S):
            assert not isv
            o.append("/-- sm2/p256_asm_amd64.s:%d-%d, p256_sm2%s%s. -/"%(a,b,name,', "%s"'%t if t else ''))
            o.append("def %s_%d : List Instr :=\n  [%s]\n"%(low,j+1,wrap(items)))
        if name not in('Select','SelectBase'):
            o.append("/-- sm2/p256_asm_amd64.s:%d-%d, p256_sm2%s. -/"%(routines[name][0][0],routines[name][-1][0],name))
            o.append("def %s : List Instr :=\n  %s\n"%(low,' ++ '.join('%s_%d'%(low,j+1) for j in range(len(S)))))
    MAC={'p256_sm2MulBy2Inline':'mulBy2Inline','p256_sm2AddInline':'addInline','acc2t':'acc2t','t2acc':'t2acc'}
    for k,nm in MAC.items():
        ln,L=expanded[k]
        dl=[i+1 for i,x in enumerate(lines) if re.match(r'#define\s+%s\b'%k,x)][0]
        o.append("/-- sm2/p256_asm_amd64.s:%d, macro %s. -/"%(dl,k))
        o.append("def %s : List Instr :=\n  [%s]\n"%(nm,wrap([li(x) for x in L])))
    for k in ('LDacc','LDt','ST','STt'):
        dl=[i+1 for i,x in enumerate(lines) if re.match(r'#define\s+%s\b'%k,x)][0]
        L=expanded[k]; nm=k[0:2].lower()+k[2:]
        slots=sorted(L)
        base=[li(x) for x in L[slots[0]]]
        gen=[re.sub(r'\.s (\d+)',lambda m:'.s (32 * k + %d)'%(int(m.group(1))-32*slots[0]),x) for x in base]
        for sl in slots:
            assert [li(x) for x in L[sl]]==[re.sub(r'\.s \(32 \* k \+ (\d+)\)',lambda m:'.s %d'%(32*sl+int(m.group(1))),x) for x in gen]
        o.append("/-- sm2/p256_asm_amd64.s:%d, macro %s, for the frame cells at 32*k. -/"%(dl,k))
        o.append("def %s (k : Nat) : List Instr :=\n  [%s]\n"%(nm,wrap(gen)))
    o.append("""/-- sm2/p256_asm_amd64.s:1729-2194: the pieces of the point routines that work on whole 256-bit numbers: the
macros of the file and the calls of its internal routines. `k` is the frame cell at 32*k(SP). -/
inductive V where
  | ldacc (k : Nat) | ldt (k : Nat) | st (k : Nat) | stt (k : Nat)
  | acc2t | t2acc | mul2 | add | mul | sqr | sub
  deriving DecidableEq, Repr

/-- sm2/p256_asm_amd64.s:1729-2194: their instructions. -/
def V.code : V → List Instr
  | .ldacc k => P256.ldacc k | .ldt k => P256.ldt k | .st k => P256.st k | .stt k => P256.stt k
  | .acc2t => P256.acc2t | .t2acc => P256.t2acc | .mul2 => mulBy2Inline | .add => addInline
  | .mul => mulInternal | .sqr => sqrInternal | .sub => subInternal
""")
    for name in ['PointAddAffineAsm','PointAddAsm','PointDoubleAsm']:
        S=segments(name); low=name[0].lower()+name[1:]
        parts=[]
        for j,(a,b,t,items,isv) in enumerate(S):
            o.append("/-- sm2/p256_asm_amd64.s:%d-%d, p256_sm2%s%s. -/"%(a,b,name,', "%s"'%t if t else ''))
            o.append("def %s_%d : List %s :=\n  [%s]\n"%(low,j+1,'V' if isv else 'Instr',wrap(items)))
            parts.append(('%s_%d.flatMap V.code' if isv else '%s_%d')%(low,j+1))
        o.append("/-- sm2/p256_asm_amd64.s:%d-%d, p256_sm2%s. -/"%(routines[name][0][0],routines[name][-1][0],name))
        o.append("def %s : List Instr :=\n  %s\n"%(low,' ++ '.join(parts) if len(' ++ '.join(parts))<90 else ' ++\n  '.join(parts)))
    o.append("end Verif.X64.P256\n")
    return '\n'.join(o)
def wrap(items):
    out='';col=3
    for i,x in enumerate(items):
        t=x+(', ' if i+1<len(items) else '')
        if col+len(t)>98: out=out.rstrip()+'\n   '; col=3
        out+=t; col+=len(t)
    return out
def emit_ordsqr():
    """The routine p256_sm2OrdSqr, which nothing calls."""
    o=["""/-
Generated by tools/asm2lean.py from sm2/p256_asm_amd64.s: the routine p256_sm2OrdSqr, declared in
sm2/p256_amd64.go and called nowhere, cut at the comments of the file.  Do not edit.
-/
import Verif.Model.P256Field

namespace Verif.X64.P256
"""]
    S=segments('OrdSqr')
    for j,(a,b,t,items,isv) in enumerate(S):
        assert not isv
        o.append("/-- sm2/p256_asm_amd64.s:%d-%d, p256_sm2OrdSqr%s. -/"%(a,b,', "%s"'%t if t else ''))
        o.append("def ordSqr_%d : List Instr :=\n  [%s]\n"%(j+1,wrap(items)))
    o.append("/-- sm2/p256_asm_amd64.s:1468-1695, the body of ordSqrLoop. -/")
    o.append("def ordSqrBody : List Instr :=\n  %s\n"%' ++ '.join('ordSqr_%d'%(j+1) for j in range(1,len(S))))
    o.append("""/-- sm2/p256_asm_amd64.s:1463-1698, p256_sm2OrdSqr. -/
def ordSqr (fuel : Nat) (s : St) : Option St := loopNZ ordSqrBody fuel (exec ordSqr_1 s)

end Verif.X64.P256
""")
    return '\n'.join(o)
if __name__=='__main__':
    open('/verif/lean/Verif/Model/P256OrdSqr.lean','w').write(emit_ordsqr())
    open(sys.argv[1] if len(sys.argv)>1 else '/verif/lean/Verif/Model/P256Code.lean','w').write(emit())
