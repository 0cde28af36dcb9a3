#!/bin/bash
/tmp/work/lk.sh "$@" 2>&1 | python3 -c "
import sys
out=sys.stdin.read().split('\n')
keep=[];skip=False
for l in out:
    if l.startswith('warning:'): skip=True
    elif l.startswith(('error:','✖','✔','⚠','Build','Some','real','info:')): skip=False
    if l.startswith(('trace:','user','sys')): continue
    if not skip: keep.append(l)
print('\n'.join(keep)[:12000])
"
