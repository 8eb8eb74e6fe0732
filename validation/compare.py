import glob,os,subprocess
ok=bad=0;bads=[]
for n in open('/tmp/val/names').read().split():
    b='/tmp/val/cases/'+n
    if not os.path.exists(b+'.out'): bads.append((n,'no output'));continue
    o=open(b+'.out',newline='').read(); st,_,text=o.partition('\n')
    meta=open(b+'.meta').read().split('\n')
    exp=open(b+'.exp').read(); err=meta[0]
    if exp.startswith('00000000: '):
        d=text.encode(); out=''
        for i in range(0,len(d),16):
            r=d[i:i+16]; h=r.hex(); h=' '.join(h[k:k+4] for k in range(0,len(h),4))
            out+='%08x: %-39s  %s\n'%(i,h,''.join(chr(x) if 32<=x<127 else '.' for x in r))
        text=out
    text=text.replace('\r','')
    exp=''.join(l for l in exp.splitlines(1) if not l.startswith('boxes: '))
    if open(b+'.sed').read().strip():
        text=subprocess.run(['sed','-E','-f',b+'.sed'],input=text,capture_output=True,text=True).stdout
    if 'ERROR' in err:
        if st=='fail': ok+=1
        else: bads.append((n,st,err,meta[1]))
    else:
        if text==exp and st=='ok': ok+=1
        else: bads.append((n,st,err,meta[1]))
print(ok)
for x in bads: print(x)
