A="Model/TracefsPath"
M=[
('M1353', 'Model/TracefsPath', 'comps', '    if c = slash then [] :: comps cs', '    if c = slash then comps cs', "slashes don't separate", 'C116', []),
('M1354', 'Model/TracefsPath', 'cleanStep', '  if c = [] ∨ c = dot then out', '  if c = [] then out', '"." is kept', 'C116', []),
('M1355', 'Model/TracefsPath', 'cleanStep', '(if rooted then [] else [dots])', '(if rooted then [] else [])', "relative paths don't lead up", 'C116', []),
('M1356', 'Model/TracefsPath', 'cleanStep', '(if rooted then [] else [dots])', '[dots]', '".." is kept at the root', 'C116', []),
('M1357', 'Model/TracefsPath', 'cleanStep', '    else if out.getLast? = some dots then out ++ [dots]\n', '', 'the second ".." takes the first back', 'C116', []),
('M1358', 'Model/TracefsPath', 'cleanStep', '    else out.dropLast', '    else []', '".." leads to the root', 'C116', []),
('M1359', 'Model/TracefsPath', 'join', 'if es.dropWhile (· = []) = [] then [] else clean (joinSlash (es.dropWhile (· = [])))', 'clean (joinSlash es)', 'empty elements at the beginning make the path absolute', 'C116', []),
('M1360', 'Model/TracefsPath', 'join', 'else clean (joinSlash (es.dropWhile (· = [])))', 'else joinSlash (es.dropWhile (· = []))', "the joined path isn't cleaned", 'C116', []),
('M1361', 'Model/TracefsPath', 'findDebugfs', 'if e.fsType ≠ [0x64, 0x65, 0x62, 0x75, 0x67, 0x66, 0x73] ∨ e.root ≠ [0x2f] then', 'if e.fsType ≠ [0x64, 0x65, 0x62, 0x75, 0x67, 0x66, 0x73] then', 'parts of debugfs count', 'C116', []),
('M1362', 'Model/TracefsPath', 'findDebugfs', '    else if isDir (join [e.mountPoint, [0x74, 0x72, 0x61, 0x63, 0x69, 0x6e, 0x67]]) then join', '    else if isDir e.mountPoint then join', 'the mount point is tested instead of tracing', 'C116', []),
('M1363', 'Model/TracefsPath', 'findDebugfs', 'then join [e.mountPoint, [0x74, 0x72, 0x61, 0x63, 0x69, 0x6e, 0x67]]\n', 'then e.mountPoint\n', 'debugfs itself is given', 'C116', []),
('M1364', 'Model/TracefsPath', 'findTracefs', 'e.fsType = [0x74, 0x72, 0x61, 0x63, 0x65, 0x66, 0x73] ∧ e.root = [0x2f]', 'e.fsType = [0x74, 0x72, 0x61, 0x63, 0x65, 0x66, 0x73]', 'parts of tracefs count', 'C116', []),
('M1365', 'Model/TracefsPath', 'findTracefs', 'then some e.mountPoint else', 'then some e.root else', 'the root of the mount is given instead of where it is mounted', 'C116', []),
('M1366', 'Model/TracefsPath', 'findInEntries', '  match findTracefs es with\n  | some p => p\n  | none => findDebugfs isDir es', '  if findDebugfs isDir es ≠ [] then findDebugfs isDir es else match findTracefs es with\n  | some p => p\n  | none => []', 'debugfs is preferred', 'C116', []),
('M1367', 'Model/TracefsPath', 'usual', '0x74726163), ([0x2f, 0x73, 0x79, 0x73, 0x2f, 0x6b, 0x65, 0x72, 0x6e, 0x65, 0x6c, 0x2f, 0x64, 0x65, 0x62, 0x75, 0x67, 0x2f, 0x74, 0x72, 0x61, 0x63, 0x69, 0x6e, 0x67], 0x64626720)]', '0x74726163)]', "tracing below debugfs isn't found", 'C116', []),
('M1368', 'Model/TracefsPath', 'usual', '[([0x2f, 0x73, 0x79, 0x73, 0x2f, 0x6b, 0x65, 0x72, 0x6e, 0x65, 0x6c, 0x2f, 0x74, 0x72, 0x61, 0x63, 0x69, 0x6e, 0x67], 0x74726163)', '[([0x2f, 0x73, 0x79, 0x73, 0x2f, 0x6b, 0x65, 0x72, 0x6e, 0x65, 0x6c, 0x2f, 0x74, 0x72, 0x61, 0x63, 0x69, 0x6e, 0x67], 0x64626720)', 'the wrong magic number', 'C116', []),
('M1369', 'Model/TracefsPath', 'probe', 'if fsType p = some m then .ok p', 'if fsType p ≠ none then .ok p', "the kind of file system isn't checked", 'C116', []),
('M1370', 'Model/TracefsPath', 'getTracefsPath', 'if env.linux = false then .error .platform\n  else match', 'match', 'other platforms are searched', 'C116', []),
('M1371', 'Model/TracefsPath', 'getTracefsPath', '      else probe env.fsType usual', '      else .error .notMounted', "the usual places aren't tried if mountinfo shows nothing", 'C116', []),
('M1372', 'Model/TracefsPath', 'sanitize', 'if base.isPrefixOf (join [base, join path]) then .ok (join [base, join path]) else .error .escape', '.ok (join [base, join path])', "escaping isn't refused", 'C116', []),
('M1373', 'Model/TracefsPath', 'sanitize', '.ok (join [base, join path]) else', '.ok (join path) else', "the path isn't below tracefs", 'C116', []),
('M1374', 'Model/TracefsPath', 'sanitize', 'if base.isPrefixOf (join [base, join path])', 'if base.isPrefixOf (join path)', 'the prefix is looked for in the wrong path', 'C116', []),
('M1375', 'Model/TracefsPath', 'eventID', '  else if validIdentifier name = false then ([], .error .invalidName)\n', '', "names aren't checked", 'C116', []),
('M1376', 'Model/TracefsPath', 'eventID', 'if validIdentifier group = false then ([], .error .invalidName)\n  else if', 'if', "groups aren't checked", 'C116', []),
('M1377', 'Model/TracefsPath', 'eventID', ', group, name, [0x69, 0x64]]', ', name, group, [0x69, 0x64]]', 'group and name are swapped', 'C116', []),
('M1378', 'Model/TracefsPath', 'eventID', ', group, name, [0x69, 0x64]]', ', group, [0x69, 0x64]]', 'the file of the group', 'C116', []),
('M1379', 'Model/TracefsPath', 'eventID', '| .error e => .error (.read e)', '| .error _ => .error .invalidName', 'the reason is lost', 'C116', []),
('M1380', 'Model/TracefsPath', 'eventsFile', '(if uprobe then [0x75, 0x70, 0x72, 0x6f, 0x62, 0x65] else [0x6b, 0x70, 0x72, 0x6f, 0x62, 0x65])', '(if uprobe then [0x6b, 0x70, 0x72, 0x6f, 0x62, 0x65] else [0x75, 0x70, 0x72, 0x6f, 0x62, 0x65])', 'the files are swapped', 'C116', []),
]
