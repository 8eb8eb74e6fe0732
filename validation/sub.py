import sys,re
d=lambda s:''.join(chr(int(x)) for x in s.split(',') if x)
pat,rep,mode,s=d(sys.argv[1]),d(sys.argv[2]),sys.argv[3],d(sys.argv[4])
toks=[];i=0
while i<len(rep):
    c=rep[i]
    if c=='$':
        m=re.match(r'\$\{?(\d+)\}?',rep[i:]); toks.append(int(m.group(1))); i+=m.end(); continue
    if c=='\\': i+=1; c=rep[i]
    toks.append(c); i+=1
f=lambda m:''.join(t if isinstance(t,str) else (m.group(t) or '') for t in toks)
r=re.sub(pat,f,s,count=0 if mode=='g' else 1)
print(','.join(str(ord(c)) for c in r))
