import Verif.Base
/-! # Model of `internal/platform/constants.go` -/
namespace Ebpf.Platform

/-- internal/platform/platform.go: `Linux`. -/
def Linux : String := "linux"
/-- internal/platform/platform.go: `Windows`. -/
def Windows : String := "windows"

/-- internal/platform/constants.go:8-11 `LinuxTag`, `WindowsTag` (iota << 28). -/
def LinuxTag : BitVec 32 := 0#32
def WindowsTag : BitVec 32 := 0x10000000#32

/-- internal/platform/constants.go:13-17 `platformMask` (7 << 28). -/
def platformMask : BitVec 32 := 0x70000000#32

/-- internal/platform/constants.go:19-28 `tagForPlatform` (error = `none`). -/
def tagForPlatform (p : String) : Option (BitVec 32) :=
  if p = Linux then some LinuxTag else if p = Windows then some WindowsTag else none

/-- internal/platform/constants.go:30-40 `platformForConstant`. -/
def platformForConstant (c : BitVec 32) : String :=
  let tag := c &&& platformMask
  if tag = LinuxTag then Linux else if tag = WindowsTag then Windows else ""

/-- internal/platform/constants.go:45-56 `EncodeConstant` (error = `none`). -/
def encodeConstant (p : String) (c : BitVec 32) : Option (BitVec 32) :=
  if c >>> 28 > 0#32 then none
  else (tagForPlatform p).map (fun tag => tag ||| c)

/-- internal/platform/constants.go:59-62 `DecodeConstant`. -/
def decodeConstant (c : BitVec 32) : String × BitVec 32 :=
  (platformForConstant c, c &&& ~~~platformMask)

end Ebpf.Platform
