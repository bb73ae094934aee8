F = "Model/KeepAlive"
C = "C93: the collector never closes a descriptor a system call is about to use"
M = [
 ("M790", F, "mapLookup", "def mapLookup : B :=\n  .use [.map] <| .call [.map] <| .branch fin <| .use [.map] fin", "def mapLookup : B :=\n  .use [.map] <| .call [.map] <| .branch fin fin", "the value is decoded without using the map", C, []),
 ("M791", F, "objInfo", ".use [r] <| .call [r] <| .use [r] k", ".use [r] <| .call [r] k", "runtime.KeepAlive is missing in ObjInfo", C, []),
 ("M792", F, "pin", ".branch (.call [r] <| .use [r] <| .branch fin <| .use [r] fin) <|", ".branch (.call [r] <| .branch fin fin) <|", "a pin isn't protected on the first path", C, []),
 ("M793", F, "newMap", "let closing : B := .use [.btf] <| .use [.module] <| .use [.template] fin\n  let done : B := .use [.made, .btf] <| .use [.module] <| .use [.template] <| .ret [.made]", "let closing : B := .use [.btf] <| .use [.module] fin\n  let done : B := .use [.made, .btf] <| .use [.module] <| .ret [.made]", "the template of a map of maps isn't closed and left to the collector", C, []),
 ("M794", F, "newProgram", ".use [.kfuncs] <| .use [.ksyms] <| .use [.kconfig] <|\n    .use [.btf] k", ".use [.kfuncs] <| .use [.kconfig] <|\n    .use [.btf] k", "the modules of ksyms are left to the collector before the load", C, []),
 ("M795", F, "newProgram", ".call fds <| .branch (.use [.spec, .btf] <| deferred <| .ret [.made]) <|\n      .branch (deferred fin) <| .use [.spec] <| deferred fin", ".call fds <| .branch (.use [.btf] <| deferred <| .ret [.made]) <|\n      .branch (deferred fin) <| deferred fin", "the spec with its maps isn't used after the load", C, []),
 ("M796", F, "populateStructOps", ".branch fin <| .use [.programs] <| .use [.map] <| .ret [.loader]", ".branch fin <| .use [.map] fin", "runtime.KeepAlive(cl.programs) is missing", C, []),
 ("M797", F, "progRun", ".branch fin <| .branch (.use [.prog] fin) fin", ".branch fin fin", "the error doesn't mention the program's type", C, []),
 ("M798", F, "cgroupClose", ".branch (.use [.clone, .cgroup] fin) (.use [.clone, .cgroup] fin)", ".branch (.use [.clone, .cgroup] fin) (.use [.cgroup] fin)", "the program of a legacy cgroup link is closed on errors only", C, []),
 ("M799", F, "cgroupClose", ".call [.clone, .cgroup] <|\n    .branch (.use [.clone, .cgroup] fin) (.use [.clone, .cgroup] fin)", ".call [.clone, .cgroup] fin", "the program and the cgroup of a legacy link are left to the collector", C, []),
 ("M800", F, "attachTCX", "def attachTCX : B :=\n  .use [.prog] <| .use [.anchor] <| .call [.prog, .anchor] <|\n    .use [.prog] <| .use [.anchor] <|", "def attachTCX : B :=\n  .use [.prog] <| .use [.anchor] <| .call [.prog, .anchor] <|\n    .use [.prog] <|", "AttachTCX doesn't keep the anchor alive", C, []),
 ("M801", F, "kprobeLink", ".branch (.use [.perfEvent] fin) <| .ret [.made, .perfEvent]\n\n/-- link/perf_event.go:300", ".branch fin <| .ret [.made]\n\n/-- link/perf_event.go:300", "the perf event isn't part of the link", C, []),
 ("M802", F, "resume", ".branch (.use [.events] failed) <| .use [.reader] ok", ".branch failed ok", "Resume doesn't use the reader after the update", C, []),
 ("M803", F, "attachFreplace", "rawLink .prog [.target] (.use [.btf] fin) (.use [.btf] <| .ret [.made])", "rawLink .prog [.target, .btf] fin (.ret [.made])", "the BTF of the target is passed but not kept", C, []),
 ("M804", F, "cgroupUpdate", ".branch (.use [.made] fin) <| .use [.prog] <| .use [.link] fin", ".branch (.use [.made] fin) <| .use [.prog] fin", "the current program isn't closed by Update but left to the collector", C, []),
 ("M805", F, "points", "  | .loader, .map => true\n", "  | .loader, .value => true\n", "the loader doesn't keep the maps it has loaded", C, []),
]
