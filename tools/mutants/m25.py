F="Model/LinkIter"
C="C88"
M=[
("M648",F,"getNextId","fun x => id < x","fun x => id ≤ x","same ID again",C,[]),
("M649",F,"info","| some _ => (tick s, .error .info)","| some _ => (tick s, .error .noent)","failing info taken for a vanished link",C,[]),
("M650",F,"classOf","| 6 => .xdp\n  | 7 => .perfEvent","| 7 => .xdp\n  | 6 => .perfEvent","XDP and perf event links swapped",C,[]),
("M651",F,"wrapRawLink","| (s, .error e) => (close s fd, .error e)","| (s, .error e) => (s, .error e)","descriptor leaks if info fails",C,[]),
("M652",F,"wrapRawLink","| (s, .ok t) => (s, .ok ⟨classOf t, fd⟩)","| (s, .ok t) => (close s fd, .ok ⟨classOf t, fd⟩)","descriptor closed on success",C,[]),
("M653",F,"loadPinned","if o.isNone then (close s fd, .error .notLink)","if o.isNone then (s, .error .notLink)","wrong object leaks",C,[]),
("M654",F,"loadPinned","if o.isNone then (close s fd, .error .notLink)","if o.isSome then (close s fd, .error .notLink)","type check inverted",C,[]),
("M655",F,"nextLoop","| (s, .error e) => some (s, .error (some e))\n    | (s, .ok id) =>","| (s, .error _) => some (s, .error none)\n    | (s, .ok id) =>","error of the kernel taken for the end",C,[]),
("M656",F,"nextLoop","| (s, .error .noent) => nextLoop k n s id","| (s, .error .noent) => some (s, .error none)","vanished link ends the iteration",C,[]),
("M657",F,"nextLoop","| (s, .error e) => some (s, .error (some e))\n      | (s, .ok l)","| (s, .error _) => nextLoop k n s id\n      | (s, .ok l)","links which can't be opened skipped silently",C,[]),
("M658",F,"next","some (closeLink s it.link, ⟨id, some l, it.err⟩, true)","some (s, ⟨id, some l, it.err⟩, true)","old link not closed",C,[]),
("M659",F,"next","some (closeLink s it.link, ⟨id, some l, it.err⟩, true)","some (closeLink s (some l), ⟨id, some l, it.err⟩, true)","new link closed instead of the old one",C,[]),
("M660",F,"next","some (closeLink s it.link, ⟨it.id, none, it.err⟩, false)","some (closeLink s it.link, ⟨it.id, it.link, it.err⟩, false)","link kept after the end",C,[]),
("M661",F,"next","⟨it.id, none, some e⟩, false)","⟨it.id, none, it.err⟩, false)","error not kept",C,[]),
("M662",F,"take","({ it with link := none }, it.link)","(it, it.link)","taken link stays with the iterator",C,[]),
("M663",F,"iterClose","def iterClose (s : S) (it : It) : S := closeLink s it.link","def iterClose (s : S) (_it : It) : S := s","Close does nothing",C,[]),
("M664",F,"next","⟨id, some l, it.err⟩, true)","⟨id + 1, some l, it.err⟩, true)","an ID skipped",C,[]),
]
