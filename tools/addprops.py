"""usage: addprops.py < python-calls ; inserts p(...) calls at the end of props.py"""
import sys
s=open('/verif/tools/props.py').read()
i=s.index('if __name__')
s=s[:i].rstrip('\n')+'\n'+sys.stdin.read().rstrip('\n')+'\n\n'+s[i:]
open('/verif/tools/props.py','w').write(s)
