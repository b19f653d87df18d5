#!/usr/bin/env python3
"""setstatus.py ID status note"""
import json, sys
p='/verif/tools/status.json'
s=json.load(open(p)); s[sys.argv[1]]={'status':sys.argv[2],'note':sys.argv[3]}
json.dump(s,open(p,'w'),indent=1)
