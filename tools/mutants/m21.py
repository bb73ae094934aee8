F="Model/Syscall"
C="C84"
M=[
("M568",F,"newToken","| some e => (s.close fsfd, .error e)","| some e => (s, .error e)","mount's descriptor leaks if no token can be created",C,[]),
("M569",F,"newToken","else ((s.close tfd).close fsfd, .error e)","else (s.close fsfd, .error e)","token leaks if its info can't be read",C,[]),
("M570",F,"newToken","if e = 22 then (s.close fsfd, .ok ⟨tfd, none⟩)","if e = 38 then (s.close fsfd, .ok ⟨tfd, none⟩)","kernels without token info refused",C,[]),
("M571",F,"newToken","| .ok i => (s.close fsfd, .ok ⟨tfd, some i⟩)","| .ok i => (s.close fsfd, .ok ⟨fsfd, some i⟩)","mount's descriptor used as the token",C,[]),
("M572",F,"skip","e == 95 || e == 2","e == 95","a bpffs without delegation is fatal",C,[]),
("M573",F,"skip","e == 13 ||","e == 13 || e == 24 ||","running out of descriptors ignored",C,[]),
("M574",F,"findLoop","| (s, .ok t) => (s, .ok (some t))","| (_, .ok t) => (s, .ok (some t))","token not recorded",C,[]),
("M575",F,"getToken","| (s, r) => ({ s with cache := some r }, r)","| (s, r) => (s, r)","token not cached: one per call",C,[]),
("M576",F,"usesToken","cmd == 0 || cmd == 5 || cmd == 18","cmd == 0 || cmd == 5","BTF loaded without the token",C,[]),
("M577",F,"tokenAttr","tokenFd := t.fd, flags := attr.flags ||| 65536","tokenFd := t.fd","token flag not set",C,[]),
("M578",F,"tokenAttr","flags := attr.flags ||| 65536","flags := 65536","caller's flags dropped",C,[]),
("M579",F,"capable","bit i.progs attr.typ && bit i.attachs attr.attach","bit i.progs attr.typ && bit i.attachs attr.typ","attach type checked with the program type",C,[]),
("M580",F,"capable","else if cmd = 0 then bit i.maps attr.typ","else if cmd = 0 then bit i.progs attr.typ","map type checked against programs",C,[]),
("M581",F,"bit","(1 <<< n) % 2 ^ 64","(1 <<< n) % 2 ^ 32","mask in 32 bits",C,[]),
("M582",F,"wrapErr","if e = 1 then\n","if e = 13 then\n","EACCES instead of EPERM",C,[]),
("M583",F,"wrapErr","if capable t cmd attr then .errno e else .cap e","if capable t cmd attr then .cap e else .errno e","wrong way around",C,[]),
("M584",F,"loop","if e = 11 ∧ cmd = 5 then loop","if e = 11 then loop","every EAGAIN repeated",C,[]),
("M585",F,"loop","if e = 11 ∧ cmd = 5 then loop","if e = 4 ∧ cmd = 5 then loop","EINTR instead of EAGAIN",C,[]),
("M586",F,"masks","cmd == 5 || cmd == 10","cmd == 5","signals not blocked while running a program",C,[]),
("M587",F,"unmask","locked := s.locked - 1, prof := false","locked := s.locked - 1","signal stays blocked",C,[]),
("M588",F,"unmask","locked := s.locked - 1, prof := false","prof := false","thread stays locked",C,[]),
("M589",F,"sigsetAdd","(b % w)))","(b % 32)))","word size fixed to 32 bits",C,[]),
("M590",F,"sigsetAdd","if b / w ≥ set.length then none","if b / w > set.length then none","off by one in the bound",C,[]),
("M591",F,"profSet","1 <<< (26 % w)","1 <<< (27 % w)","SIGCHLD blocked instead of SIGPROF",C,[]),
("M592",F,"inner","| (s, .error e) => some (s, .error (.token e))","| (s, .error _) => loop none cmd attr answers fuel 0 s","errors of the token search ignored",C,[]),
]
