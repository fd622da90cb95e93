import sys,glob,os
import xml.parsers.expat as E
def lit(s):
    return 'c!"'+s.replace('\\','\\\\').replace('"','\\"').replace('\n','\\n').replace('\t','\\t')+'"'
def conv(path):
    p=E.ParserCreate(namespace_separator='|'); p.buffer_text=True
    p.namespace_prefixes=False
    stack=[]; root=[None]; pend=[]
    nsstack=[{}]
    def q(n):
        if '|' in n:
            u,l=n.rsplit('|',1); return l,u
        return n,None
    def sns(pfx,uri): pend.append((pfx,uri))
    def se(name,attrs):
        ns=dict(nsstack[-1])
        for a,b in pend: ns[a]=b
        pend.clear(); nsstack.append(ns)
        l,u=q(name)
        ats=[(q(k),v) for k,v in attrs.items()]
        stack.append((l,u,ats,ns,[],p.CurrentByteIndex))
    def ee(name):
        e=stack.pop(); nsstack.pop()
        if stack: stack[-1][4].append(('e',e))
        else: root[0]=e
    def cd(d):
        if stack: stack[-1][4].append(('t',d))
    def co(d):
        if stack: stack[-1][4].append(('o',None))
    p.StartElementHandler=se; p.EndElementHandler=ee; p.CharacterDataHandler=cd; p.CommentHandler=co; p.StartNamespaceDeclHandler=sns
    p.Parse(open(path,'rb').read(),True)
    def opt(x): return 'none' if x is None else f'some {lit(x)}'
    def info(e):
        l,u,ats,ns,ch,pos=e
        a=', '.join(f'⟨{lit(k[0])}, {opt(k[1])}, {lit(v)}, {pos}⟩' for k,v in ats)
        n=', '.join(f'({opt(k)}, {lit(v)})' for k,v in ns.items())
        return f'⟨⟨{lit(l)}, {opt(u)}⟩, [{a}], [{n}], {pos}⟩'
    def node(t):
        k,e=t
        if k=='t': return f'.text {lit(e)}'
        if k=='o': return '.other'
        return f'.elem {info(e)} [{", ".join(node(c) for c in e[4])}]'
    r=root[0]
    return f'({info(r)}, [{", ".join(node(c) for c in r[4])}])'
if __name__=='__main__':
    for f in sys.argv[1:]:
        print(conv(f))
