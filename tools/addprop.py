#!/usr/bin/env python3
"""Append a property: addprop.py ID title statement quantifier why anchor [anchor...]"""
import json, sys
i, t, s, q, w, *a = sys.argv[1:]
assert i not in [json.loads(l)['id'] for l in open('/verif/properties.jsonl')], i
open('/verif/properties.jsonl','a').write(json.dumps(dict(id=i,title=t,statement=s,quantifier=q,why_tests_cant=w,anchors=a))+'\n')
