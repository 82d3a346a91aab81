#!/usr/bin/env python3
"""Regenerates DESIGN.md from tools/design_head.md, plan.json, status.json, findings.md and properties.jsonl."""
import json
R='/verif/'
plan=json.load(open(R+'tools/plan.json')); st=json.load(open(R+'tools/status.json'))
out=open(R+'tools/design_head.md').read()
props=sorted((json.loads(l) for l in open(R+'properties.jsonl')),key=lambda p:p['id'])
for p in props:
    s,n=st.get(p['id'],['planned',''])
    if p['id'] not in plan: print('no plan for',p['id'])
    out+=f"* **{p['id']}** {p['title']}. *How:* {plan.get(p['id'],'')}. *Status:* {s}{'; '+n if n else ''}.\n"
out+=open(R+'tools/findings.md').read()
open(R+'DESIGN.md','w').write(out)
