#!/bin/bash
cd ${D:-/verif/lean}; lake build "$@" 2>&1 | grep -v "^⚠\|^ℹ\|Replayed\|^trace" > /tmp/work/out.txt; N=${N:-40} python3 - <<'P'
import re,os
N=int(os.environ['N'])
t=open('/tmp/work/out.txt').read()
blocks=re.split(r'\n(?=(?:warning|error|info|✔|✖|Build|Some))',t)
out=[]
for b in blocks:
    if b.startswith('warning') or b.startswith('✔'): continue
    ls=b.split('\n')
    if len(ls)>N: ls=ls[:N//2]+['   ...']+ls[-N//2:]
    out.append('\n'.join(ls))
print('\n'.join(out)[:12000])
P
