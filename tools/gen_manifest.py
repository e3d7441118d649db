#!/usr/bin/env python3
import json, os
C=[]
def c(prop,status,thms,note): C.append(dict(property=prop,status=status,theorems=["Rmc."+t for t in thms],note=note))
B="CircBuf."
c("C01","proved",[B+"C01_reachable_wf",B+"C01_accounting",B+"C01_counts"],"all sizes up to 2^31, all index positions")
c("C02","proved",[B+"C02_fifo",B+"step_refines",B+"run_refines"],"refinement of a list-of-bytes queue for every history; run_refines also covers trims and offset reads in their safe class")
c("C03","proved",[B+"C03_alloc"],"")
c("C04","partial",[B+"C04_readOffset_partial",B+"C04_library_offsets",B+"C04_exact",B+"C04_false"],"False of the code in general (C04_false, reachable witness); C04_exact characterises exactly when it holds; offsets 0 and 1 are always right")
c("C05","partial",[B+"C05_trim_partial",B+"C05_exact",B+"C05_unwrapped_safe",B+"C05_false"],"False of the code in general (uint32 underflow, C05_false); C05_exact gives the exact class")
c("C06","proved",[B+"C06_readSegment"],"")
c("C07","partial",[B+"C07_in_bounds",B+"C07_fill_in_bounds",B+"C07_history_partial",B+"C07_false"],"holds for every well-formed state; a trim outside the safe class leaves the well-formed states and then memory outside the array is accessed (C05_false)")
exec(open(os.path.join(os.path.dirname(__file__),'manifest_more.py')).read())
json.dump({"claims":C},open(os.path.join(os.path.dirname(__file__),'..','MANIFEST.json'),'w'),indent=1)
print(len(C))
