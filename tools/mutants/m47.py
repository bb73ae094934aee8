# Survivors of tools/automut.py for which theorems were added.
import json, glob
M = []
T = {}
def m(i, f, d, old, new, bug, c, tight):
    M.append((i, "Model/"+f, d, old, new, bug, c, [])); T[i] = tight
m("M1196","Bindings","fieldOk","  | [] => true","  | [] => false","bpf2go refuses all variables","C102",["generate_iff"])
m("M1197","AttachTarget","attachTarget","| some (.error .unrecognized, st) => some (.ok ⟨0, none, none⟩, st)","| some (.error .unrecognized, st) => some (.ok ⟨1, none, none⟩, st)","programs without a target get one","C76",["no_target"])
m("M1198","StructOps","copyBytes","else if data.length < m.offset + n then .error .tooSmall","else if data.length ≤ m.offset + n then .error .tooSmall","members at the end of the value are refused","C75",["populate_iff"])
m("M1199","ElfReader","keepSymbol","| .maps | .btfMaps | .data => s.typ = .notype || s.typ = .object","| .maps | .btfMaps | .data => s.typ = .notype && s.typ = .object","no symbols in sections of maps and data","C66",["keep_object"])
m("M1200","UnsafeMemory","basicSize","  | .int16 | .uint16 => 2","  | .int16 | .uint16 => 4","16-bit variables have 4 bytes","C100",["basic_size"])
m("M1201","CoreField","calculateFixup","if relo.accs ≠ [] ∨ relo.acc ≠ 0 then some (.error .other)","if relo.accs ≠ [] ∨ relo.acc = 0 then some (.error .other)","type relocations with accessor 0 are refused, others accepted","C36",["typeBased_accessor"])
m("M1202","BtfUnmarshal","checkHeader","drop (if 8 ≤ h.hdrLen.toNat - 24 then 8 else 0)","drop (if ¬ (8 ≤ h.hdrLen.toNat - 24) then 8 else 0)","unknown header fields aren't checked","C56",["header_accepted"])
m("M1203","KernelInfo","isBlank","c = 0x20 || c = 0x09","c = 0x20 && c = 0x09","spaces before numbers aren't skipped","C97",["blanks_skipped"])
m("M1204","BtfDatasec","fixupDatasec","| .func .. => true | .var .. => true | _ => false)","| .func .. => true | .var .. => false | _ => false)",".ksyms sections with variables are refused","C31",["ksyms_exact"])
m("M1205","Cgroup","close","| none => (⟨(w.fds.close current).close cgroup, w.kern⟩, false)","| none => (⟨(w.fds.close current).close cgroup, w.kern⟩, true)","Close fails although everything was detached","C86",["close_ok"])
m("M1206","RingReader","WaitRes.drains","  | .flushed => true\n  | _ => false","  | .flushed => true\n  | _ => true","a closed reader drains and reports ErrClosed later","C20",["only_interruptions_drain"])
m("M1207","CoreField","fieldFixup","| .ok a, .ok b => .ok ⟨k, BitVec.ofNat 64 a, BitVec.ofNat 64 b, false, l.bitfieldSize != 0⟩","| .ok a, .ok b => .ok ⟨k, BitVec.ofNat 64 a, BitVec.ofNat 64 b, false, l.bitfieldSize != 1⟩","sizes of fields aren't validated","C35",["field_value_ok"])
m("M1208","Mountinfo","isSpace","n == 0x202f || n == 0x205f","n == 0x202f && n == 0x205f","some white space doesn't separate fields","C48",["isSpace_iff"])
