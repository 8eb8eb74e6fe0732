import glob,os
D='/repo/test/sunny-day/'
inp=open(D+'_input.txt').read().replace('\r','')
names=[]
def w(n,opts,i,e):
    b='/tmp/val/cases/'+n
    open(b+'.case','w').write('\n'.join(opts)+'\n')
    open(b+'.in','w').write(i); open(b+'.exp','w').write(e); open(b+'.sed','w').write(''); open(b+'.meta','w').write('\n'+n)
    names.append(n)
for f in sorted(glob.glob(D+'*.create.txt')):
    d=os.path.basename(f)[:-len('.create.txt')]
    c=open(f,newline='').read().replace('\r',''); m=open(D+d+'.mend.txt',newline='').read().replace('\r','')
    o=['opt\tf\t../boxes-config','opt\td\t'+d]
    w('sd-'+d+'-c',o,inp,c)
    rp,rr=('et ','__ET__ ') if d!='headline' else ('e t  ','_ _ E T _ _  ')
    w('sd-'+d+'-m',o+['opt\tm\t'],c.replace(rp,rr),m)
    w('sd-'+d+'-r',o+['opt\tr\t'],c,inp)
open('/tmp/val/names','w').write(' '.join(names)); print(len(names))
