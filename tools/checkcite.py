"""every cited file exists, and cited line ranges following a file name lie within it"""
import re,glob,os
files={}
for root,_,fs in os.walk('/repo/src'):
    for f in fs:
        if f.endswith('.py'): files.setdefault(f,[]).append(sum(1 for _ in open(os.path.join(root,f))))
bad=0; nodoc=0
for p in sorted(glob.glob('/verif/lean/Verif/**/*.lean',recursive=True)):
    s=open(p).read()
    for m in re.finditer(r'([A-Za-z_0-9]+\.py)[`):]*,? ?((?:\d+(?:-\d+)?(?:, | and )?)*)',s):
        f,r=m.group(1),m.group(2)
        if f not in files: print(p,'no file',f); bad+=1; continue
        for n in re.findall(r'\d+',r):
            if int(n)>max(files[f]): print(p,f,n,'>',max(files[f])); bad+=1
print('bad',bad)
import collections
defs=collections.defaultdict(list)
for root,_,fs in os.walk('/repo/src'):
    for f in fs:
        if f.endswith('.py'):
            L=open(os.path.join(root,f)).read().split('\n')
            for i,l in enumerate(L,1):
                m=re.match(r'\s*(?:def|class) (\w+)',l)
                if m:
                    ind=len(l)-len(l.lstrip())
                    j=i
                    while j<len(L) and (not L[j].strip() or len(L[j])-len(L[j].lstrip())>ind or L[j].strip().startswith(')')): j+=1
                    while not L[j-1].strip(): j-=1
                    defs[m.group(1)].append((f,i,j))
for p in sorted(glob.glob('/verif/lean/Verif/**/*.lean',recursive=True)):
    for k,l in enumerate(open(p),1):
        for m in re.finditer(r'(\d+)-(\d+)(?::)? `(?:self\.|\w+\.)?(\w+)',l):
            a,b,n=int(m.group(1)),int(m.group(2)),m.group(3)
            if n in defs and not any(abs(i-a)<=1 and abs(j-b)<=1 for f,i,j in defs[n]):
                if not any(i<=a+1 and b-1<=j for f,i,j in defs[n]):
                    print(os.path.basename(p),k,m.group(0),defs[n])
