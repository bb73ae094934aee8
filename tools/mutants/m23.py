F="Model/Cgroup"
C="C86"
M=[
("M610",F,"newProgAttachCgroup","| .error x => (⟨f.close c, w.kern⟩, .error x)","| .error x => (⟨f, w.kern⟩, .error x)","clone leaks if attaching fails",C,[]),
("M611",F,"newProgAttachCgroup",".ok (.emulated cgroup c attach flags))",".ok (.emulated cgroup prog attach flags))","caller's program kept instead of the clone",C,[]),
("M612",F,"attachCgroup","| .ok (w, h) => (⟨w.fds.close cgroup, w.kern⟩, .ok h)","| .ok (w, h) => (w, .ok h)","cgroup left open with a link",C,[]),
("M613",F,"attachCgroup","| .error x => (⟨w.fds.close cgroup, w.kern⟩, .error x)\n      | .ok h => (w, .ok h)","| .error x => (w, .error x)\n      | .ok h => (w, .ok h)","cgroup left open on errors",C,[]),
("M614",F,"attachCgroup","| .ok h => (w, .ok h)\n\n","| .ok h => (⟨w.fds.close cgroup, w.kern⟩, .ok h)\n\n","cgroup closed although the emulated link needs it",C,[]),
("M615",F,"attachCgroup","if x = .notSupported then newProgAttachCgroup K e w cgroup attach prog 2","if x = .notSupported then newProgAttachCgroup K e w cgroup attach prog 1","override mode used where multi is possible",C,[]),
("M616",F,"attachCgroup","if x = .notSupported then newProgAttachCgroup K e w cgroup attach prog 2","if x = .notSupported then newProgAttachCgroup K e w cgroup prog attach 2","attach type and program swapped",C,[]),
("M617",F,"close","| some k => (⟨(w.fds.close current).close cgroup, k⟩, true)","| some k => (⟨w.fds.close current, k⟩, true)","cgroup not closed",C,[]),
("M618",F,"close","| none => (⟨(w.fds.close current).close cgroup, w.kern⟩, false)","| none => (w, false)","descriptors leak if detaching fails",C,[]),
("M619",F,"close","match rawDetach K e w cgroup current attach with","match rawDetach K e w current cgroup attach with","descriptors swapped when detaching",C,[]),
("M620",F,"update","(if flags &&& 2 > 0 then some current else none)","none","Update adds instead of replacing",C,[]),
("M621",F,"update","(if flags &&& 2 > 0 then some current else none)","(if flags &&& 2 > 0 then some prog else none)","Update replaces the new program",C,[]),
("M622",F,"update","| .error _ => (⟨f.close new, w.kern⟩, h, false)","| .error _ => (⟨f.close current, w.kern⟩, h, false)","old program closed if Update fails",C,[]),
("M623",F,"update","| .ok k => (⟨f.close current, k⟩, .emulated cgroup new attach flags, true)","| .ok k => (⟨f, k⟩, .emulated cgroup new attach flags, true)","old program leaks",C,[]),
("M624",F,"update","| .ok k => (⟨f.close current, k⟩, .emulated cgroup new attach flags, true)","| .ok k => (⟨f.close new, k⟩, .emulated cgroup current attach flags, true)","old program kept, so Close detaches the wrong one",C,[]),
("M625",F,"update","| .ok k => (⟨f.close current, k⟩, .emulated cgroup new attach flags, true)","| .ok k => (⟨f.close current, k⟩, .emulated cgroup prog attach flags, true)","caller's program kept after Update",C,[]),
("M626",F,"newLinkCgroup","K.linkCreate w.kern c attach p with","K.linkCreate w.kern attach c p with","target and type swapped",C,[]),
("M627",F,"rawAttach","K.attach w.kern c attach p (flags ||| 4) (some q)","K.attach w.kern c attach p flags (some q)","replace flag missing",C,[]),
("M628",F,"newProgAttachCgroup","if flags &&& 2 > 0 then (match e.haveReplace","if flags &&& 1 > 0 then (match e.haveReplace","replace support checked in the wrong mode",C,[]),
]
