import re,subprocess
src=open('/repo/tests/errors.rs').read()
body=src[src.index('error_helper!(\n'):]
calls=re.findall(r'error_helper!\(\s*"([^"]+)"\s*,\s*((?:"(?:\\.|[^"\\])*"\s*,?\s*)+)\)',body,re.S)
def unq(s):
    s=re.sub(r'\\\n\s*','',s)
    return s.replace("\\'","'").replace('\\"','"').replace('\\\\','\\')
exp={}
for f,rest in calls:
    exp['tests/test_files/errors/'+f]=[ 'tests/test_files/errors/'+f+': '+unq(x) for x in re.findall(r'"((?:\\.|[^"\\])*)"',rest,re.S)]
out=subprocess.run('cd /repo && LEAN_PATH=$(cd /verif/lean && lake env printenv LEAN_PATH) lean --run /tmp/run/Run.lean '+' '.join(exp),shell=True,capture_output=True,text=True)
print(out.stderr[:500])
ok=0
for l in out.stdout.split('\n'):
    if l.startswith('ERR '):
        f,m=l[4:].split('\t',1)
        if m in exp[f]: ok+=1
        else: print('DIFF',f,m,exp[f])
    elif l: print(l[:200])
print(ok,len(exp))
