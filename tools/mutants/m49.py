M = [
 ("M1234","Model/StructOps","missingMember","    if data.length < m.offset + n then .error .tooSmall\n    else if isZeroed","    if data.length < m.offset - n then .error .tooSmall\n    else if isZeroed","a missing member may lie beyond the user's data","C75",[]),
 ("M1235","Model/BtfMaps","sanitizeName","c.toNat == 46 || c.toNat == 95","c.toNat != 46 || c.toNat == 95","names of maps keep characters that aren't allowed","C71",[]),
 ("M1236","Model/Helpers","Version.kernel","((v.minor.setWidth 8).setWidth 32)","((v.minor.setWidth 9).setWidth 32)","a minor version above 255 spills into the major one","C110",[]),
 ("M1237","Model/MapOps","isNil","  | .nil => true\n  | _ => false","  | .nil => true\n  | _ => true","NextKey of a key guesses another key if the kernel says EFAULT","C92",[]),
 ("M1238","Model/BtfUnmarshal","parseMembers","⟨name, ty, off + o, s, []⟩","⟨name, ty, off - o, s, []⟩","the offset of an old-style bitfield has the wrong sign","C26",[]),
]
