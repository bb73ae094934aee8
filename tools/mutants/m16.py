P="Model/Poller"
M=[
 ("M460", P, "act", "if s.epoll = false then some ({ s with epollMu := none }, .waitDone [] .closed) else some (s, .wait2 d)", "some (s, .wait2 d)", "Wait does not check for a closed poller", "C79", []),
 ("M461", P, "act", "else some ({ s with eventMu := none, closeCnt := s.closeCnt + 1 }, .close2)", "else some ({ s with eventMu := none }, .close2)", "Close does not wake Wait", "C79", []),
 ("M462", P, "act", "| .close2 => if s.epollMu = none then some ({ s with epollMu := some i }, .close3) else none", "| .close2 => some (s, .close3)", "Close does not wait for Wait", "C79", []),
 ("M463", P, "act", "if s.closeEv = false then some ({ s with eventMu := none }, .closeDone .closed)", "if s.closeEv = false then some (s, .closeDone .closed)", "lock not released on a second Close", "C79", []),
 ("M464", P, "closeAll", "epoll := false, closeEv := false, flushEv := false }", "epoll := false, closeEv := false }", "flush event not cleared", "C79", []),
 ("M465", P, "closeAll", "epoll := false, closeEv := false, flushEv := false }", "closeEv := false, flushEv := false }", "epoll descriptor not marked closed", "C79", []),
 ("M466", P, "finishWait", "flushCnt := if r.2.2 ≠ 0 then 0 else s.flushCnt", "flushCnt := s.flushCnt", "flush event never read", "C79", []),
 ("M467", P, "finishWait", "else if r.2.2 ≠ 0 then (s, .waitDone r.1 .flushed)", "else if r.2.2 ≠ 0 then (s, .waitDone r.1 .ok)", "flush not reported", "C79", []),
 ("M468", P, "scan", "| .flush :: es => ((scan es).1, (scan es).2.1, (scan es).2.2 + 1)", "| .flush :: _ => ([], false, 1)", "events after the flush event dropped", "C79", []),
 ("M469", P, "scan", "| .close :: _ => ([], true, 0)", "| .close :: es => scan es", "close event ignored", "C79", []),
 ("M470", P, "epollWait", "| .timeout => some ({ s with epollMu := none,", "| .timeout => some ({ s with", "lock kept after a timeout", "C79", []),
 ("M471", P, "act", "if s.flushEv = false then some ({ s with eventMu := none }, .flushDone .closed)\n    else some ({ s with eventMu := none, flushCnt := s.flushCnt + 1 }, .flushDone .ok)", "some ({ s with eventMu := none, flushCnt := s.flushCnt + 1 }, .flushDone .ok)", "Flush after Close succeeds", "C79", []),
 ("M472", P, "new", "else if fails 3 then (false, [0, 1, 2], [2, 1, 0])\n  else if fails 4 then (false, [0, 1, 2], [2, 1, 0])", "else if fails 3 then (false, [0, 1, 2], [2, 1, 0])\n  else if fails 4 then (false, [0, 1, 2], [2, 1])", "epoll descriptor leaked by New", "C79", []),
 ("M473", P, "act", "| .close3 => if s.eventMu = none then some ({ s with eventMu := some i }, .close4) else none", "| .close3 => some (s, .close4)", "Close does not take the event lock", "C79", []),
 ("M474", P, "finishWait", "let s := { s with epollMu := none, flushCnt", "let s := { s with flushCnt", "Wait does not release the lock", "C79", []),
]
