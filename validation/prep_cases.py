import unicodedata,glob,os,re,shlex,getopt
os.makedirs('/tmp/val/cases',exist_ok=True)
def ranges(f):
    out=[];a=None
    for c in range(0x300,0x30000):
        if f(c):
            if a is None:a=c
        elif a is not None: out.append((a,c-1));a=None
    return out
wide=ranges(lambda c:unicodedata.east_asian_width(chr(c)) in 'WF')
zero=ranges(lambda c:unicodedata.category(chr(c)) in('Mn','Me','Cf'))
open('/tmp/val/wide.txt','w').write('\n'.join('%d %d'%x for x in wide)+'\n')
open('/tmp/val/zero.txt','w').write('\n'.join('%d %d'%x for x in zero)+'\n')
names=[]
for f in sorted(glob.glob('/repo/test/*.txt')):
    t=open(f,'rb').read().decode('utf8','replace').replace('\r','')
    n=os.path.basename(f)[:3]
    m=re.search(r'^:ARGS\n(.*?)^:INPUT[^\n]*\n(.*?)^:OUTPUT-FILTER\n(.*?)^:EXPECTED([^\n]*)\n(.*?)^:EOF',t,re.S|re.M)
    if not m: print('bad',f); continue
    args,inp,filt,err,exp=m.groups()
    args=args.strip()
    env=re.search(r'^:ENV\n(.*?)^:ARGS',t,re.S|re.M)
    lines=[]
    if env:
        for e in re.findall(r'export (\w+)=(\S*)',env.group(1)): lines.append('env\t%s\t%s'%(e[0],e[1].replace('`pwd`','/repo/test').strip('"')))
    else: lines.append('env\tBOXES\t../boxes-config')
    try:
        o,rest=getopt.gnu_getopt(shlex.split(args),'a:c:d:e:f:hi:k:lmn:p:q:rs:t:vx:',['align=','create=','color','design=','eol=','config=','help','indent=','kill-blank','list','mend','no-color','no-kill-blank','encoding=','padding=','tag-query=','remove','size=','tabs=','version'])
        for k,v in o:
            k=k.lstrip('-'); k={'align':'a','design':'d','list':'l','mend':'m','remove':'r','tag-query':'q','size':'s','config':'f','tabs':'t','indent':'i','eol':'e','padding':'p','encoding':'n','create':'c','help':'h','version':'v'}.get(k,k)
            lines.append('opt\t%s\t%s'%(k,v))
        for r in rest: lines.append('file\t'+r)
    except getopt.GetoptError as e:
        lines.append('opt\tbad\t')
    open('/tmp/val/cases/%s.case'%n,'w').write('\n'.join(lines)+'\n')
    open('/tmp/val/cases/%s.in'%n,'w').write(inp)
    open('/tmp/val/cases/%s.exp'%n,'w').write(exp)
    open('/tmp/val/cases/%s.sed'%n,'w').write(filt)
    open('/tmp/val/cases/%s.meta'%n,'w').write(err+'\n'+args)
    names.append(n)
open('/tmp/val/names','w').write(' '.join(names))
print(len(names))
