"""Generates lean/Verif/Model/FaultTable.lean from DPIFaultCode.h."""
import re
p='/repo/src/vendor/ra/powerFlex525/DPIFaultCode.h'
lines=open(p).read().split('\n')
text='\n'.join(lines)
ents=re.findall(r'\{(\d+), FaultDescriptions\{\s*(\d+),\s*("(?:[^"\\]|\\.)*"(?:\s*"(?:[^"\\]|\\.)*")*),\s*("(?:[^"\\]|\\.)*")\s*\}\}',text)
first=next(i for i,l in enumerate(lines,1) if '_faultMap' in l)
last=max(i for i,l in enumerate(lines,1) if l.strip()=='};' and i>first and any('}},' in x for x in lines[i-2:i]))
n=text.count('FaultDescriptions{')
assert n==len(ents),(n,len(ents))
keys=[int(e[0]) for e in ents]
assert len(set(keys))==len(keys)
out=['/-!','# The fault table of `DPIFaultCode`','','Generated by `tools/faults.py` from `src/vendor/ra/powerFlex525/DPIFaultCode.h`.','-/','','namespace Verif','',
'/-- `DPIFaultCode::FaultDescriptions` (DPIFaultCode.h:26-30). -/',
'structure FaultDescription where','  faultType : Int','  faultText : String','  faultDescription : String','deriving Repr, DecidableEq','',
'/-- `_faultMap` (DPIFaultCode.h:%d-%d), in the order of the source. -/'%(first,last),
'def faultTable : List (Int × FaultDescription) := [']
out.append(',\n'.join('  (%s, ⟨%s, %s, %s⟩)'%(e[0],e[1],e[2],e[3]) for e in ents)+']')
out+=['','end Verif','']
open('/verif/lean/Verif/Model/FaultTable.lean','w').write('\n'.join(out))
print(keys,first,last)
