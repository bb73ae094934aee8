# Formal model of cilium/ebpf in Lean 4

## Layout

* `lean/Verif/Model/*.lean` – the model: total, computable Lean functions that follow the Go
  functions one by one. Every definition cites the file and lines of `/repo` it models and lists
  simplifications.
* `lean/Verif/Spec/*.lean` – small specifications (plain lists, sets, arithmetic) written
  without the model's helpers.
* `lean/Verif/Lemmas/*.lean` – auxiliary lemmas.
* `lean/Verif/Props/*.lean` – the property theorems, each with a non-vacuity `example`.

* `tools/mutate.py` runs the hand-written seeded bugs of `tools/mutants/`, `tools/automut.py` random ones (one token, one match arm or one
  record update of a model definition at a time); survivors of the latter are inspected, logged if a claim is affected, and the theorems tightened.

Go integers are modelled as `BitVec n` (wrap-around, truncation and sign extension are therefore
exact) or, where the comment says so, as unbounded `Nat`/`Int`. Byte strings are `List (BitVec 8)`.
Errors are `Except`/`Option` values; the text of error messages is not modelled, only which
sentinel error is wrapped. The kernel is modelled as an adversary (arbitrary answers) or as a small
explicit state machine where the property needs one. `sort.Slice` with a comparator that is not a strict order (`<=`) is taken to return some permutation.

## Trusted base

* Lean 4.33.0 kernel; axioms used: at most `propext`, `Classical.choice`, `Quot.sound`
  (checked with `#print axioms`). No axioms are added, no compiled-code evaluation is used.
* The correspondence between the Go text and the Lean definitions (manual translation; nothing is
  extracted). Go runtime semantics assumed: slices/maps/integers as in the language spec, sequentially
  consistent atomics, mutexes as critical sections.
* Parts not modelled: syscalls and kernel behaviour (except explicit assumptions), ELF container
  parsing by debug/elf, reflection-based encoding in `encoding/binary`, the garbage collector (C43 models cleanups as an adversarial scheduler), Windows
  (internal/efw), generated code (types_string.go, internal/sys/types.go), cmd/bpf2go output, link/ attach syscalls.

## Per property plan

See the table at the end (kept current with MANIFEST.json).

| id | modelled | proof |
|----|----------|-------|
| C01 | `asm.OpCode` getters/setters on `BitVec 32` | bit-extensionality over all words |
| C02, C03 | `Instruction.Marshal/Unmarshal` on byte lists, both byte orders | case split on class, BitVec lemmas |
| C04 | `Instructions.Marshal`, `AppendInstructions` | induction over the program |
| C05 | same model | negation with witness (code bug) and `_partial` for constants that carry the op |
| C06 | `encodeFunctionReferences`, `SymbolOffsets` | induction over program; negation for int16 overflow, theorem under range condition |
| C07 | `encodeMapFD` & co on `BitVec 64` | bit-extensionality |
| C08 | `Tag` input stream | induction; the hash itself is an arbitrary function |
| C09 | metadata list | refinement to `key → Option value`; persistence by immutability of shared nodes in an explicit heap model |
| C10 | `EncodeConstant/DecodeConstant` | arithmetic |
| C11 | `flattenPrograms` as work-list with explicit pending/linked sets | invariant + measure for termination |
| C12, C13 | byte-level marshalers with an abstract element codec | induction over CPUs/elements |
| C14 | iterator state machine against an adversarial kernel | measure/invariant |
| C15 | `updateDataSection` | induction over sorted variables |
| C16, C17 | `Memory`, `Variable` | list lemmas |
| C18, C19 | ring as bytes + positions; reader state machine | refinement to list of records |
| C20 | `ReadSample` control flow with oracle for poller | induction on oracle |
| C21 | interleaving transition system | inductive invariant |
| C22 | forward/reverse ring readers | modular arithmetic |
| C23 | Pause/Resume over list of rings | negation with witness, partial when all CPUs are online |
| C24 | builder + lookup | induction over Add history |
| C25 | header accessors | bit-extensionality |
| C26 | deflate/inflate of every kind, IDs, string table, declaration tags, the heap built by TypeByID | per-kind record round trip; invariant of the pending queue; invariant of the inflated heap (copy of a part of the graph) over any history of calls; totality by a size measure |
| C27 | Builder/encoder ID allocation | invariant |
| C28 | the hash index (sort, binary search), TypesByName, AnyTypesByName, TypeByName on a stateful decoder | exactness for any hash by sortedness; name invariant of the heap; negation with witnesses |
| C29 | Sizeof | induction over fuel (max depth) |
| C30 | essential name on char lists | list lemmas |
| C31 | fixupDatasecLayout | induction |
| C32 | COREFixup.Apply | case analysis |
| C33 | scoring loop | induction over candidates |
| C34 | adjustOffsetBits, sizeBits, shift and signedness fix-ups (Model/CoreField) | reads specified on bytes and natural numbers (Spec/CoreField); bit arithmetic; partial: the load must cover the bits |
| C35 | coreFindField, coreFindMember, coreFindEnumValue, coreCalculateFixup (Model/CoreField) | paths of names as inductive relations over unbounded offsets; induction over accessor and queue |
| C36 | coreAreTypesCompatible on type graphs | generic coinductive checker (as C57), equivalence laws from the specification |
| C37 | Model/BtfDedup: typesEquivalent, compositeEquivalent, hash (arbitrary hash function), hashInsert, deduplicate, sequences of Builder.Add | acyclic graphs: typesEquivalent terminates and decides equality up to the fields of `brief`; invariant over all histories; meaning of every type preserved, same types get one representative; counterexamples (collision-free hash) for bit fields, linkage, tags, enums behind pointers, recursive types |
| C38 | postorder | invariant |
| C39 | MarshalExtInfos, Load*Infos, assignment to instructions | induction over the instructions with the raw offset; bit arithmetic for line and column |
| C40 | Deque | refinement to list |
| C41 | Align/IsPow | arithmetic |
| C42 | execute as interleaving system | invariant |
| C43 | fd state machine with kernel table | invariant |
| C44 | assignAddresses over parsed lines, cache | induction |
| C45, C46 | kconfig | induction; negation for unsigned truncation |
| C47 | Version | arithmetic |
| C48 | mountinfo parser on char lists | induction; negation for CR in path |
| C49, C50 | loader state machine with failure oracle and iteration-order nondeterminism | invariant; negation |
| C51 | Compatible/fixupMagicFields | case analysis; negation for CPUMap mutation |
| C52 | sys.Pin/Unpin over a file system, handles, faults and external changes | invariant over histories; negation for external changes proved in general |
| C53 | sysenc zero-copy and binary paths over a universe of fixed-size types with arbitrary layout | mutual structural induction; negation for blank fields |
| C54 | batchLookupPerCPU | list lemmas; negation with witness |
| C55 | close protocol plus the lease-free accessor | invariant for leases; reachable counterexample |
| C56 | inflateType on arbitrary blobs | invariant: known types stay, objects keep their names |
| C57 | coreTypesMatch on type graphs | generic coinductive checker: acceptance yields a consistent relation, consistent pairs are never rejected, fresh pairs decrease |
| C58 | take/assignMetadata on sorted records | induction over the instructions; negation (stray and duplicate records) proved in general |
| C59 | loadExtInfos on byte strings, parseCOREAccessor | iff with the encoding of the format; negation for the short header proved in general |
| C60 | memorySize on 32 bit numbers | arithmetic; negation proved in general |
| C61 | applyUntyped on top of the kallsyms model, applyTyped with the kernel as oracle and handles as ghost state | invariant of the loop; composition with C44 |
| C62 | fixupKfuncs as a step machine with the iterator position | invariant, decreasing measure; negations with witnesses |
| C63 | resolveKconfigReferences | induction over instructions, bit arithmetic |
| C64 | fixupAndValidate, fixupProbeReadKernel | induction over instructions |
| C65 | as C49 | totality of every step without faults; the rule for program arrays from the check itself |
| C66 | assignSymbols, loadSectionRelocations, relocateInstruction, referenceRelativeJump, loadFunctions, loadProgramSections on objects given as sections, symbols and relocation records (parsing of the ELF container by debug/elf is not modelled) | spec: symbol value + addend; induction over symbols, sections, instructions; counterexamples |
| C67 | C66 model, flattenInstructions, encodeFunctionReferences | composition of C66, C11, C06 |
| C68 | Model/GoFormat: writeTypeDecl, writeTypeLit, writeType, writeStructField, structFields, datasecFields, producing the syntax tree of the Go type | separate spec of Go's memory layout (sizes, alignments, trailing zero-size field); simultaneous induction over the three mutually recursive functions; counterexamples |
| C69 | Model/Uprobe: load, lazyLoadSymbols, address, Symbol, addresses over a parsed ELF file (debug/elf is not modelled) | spec: file offset of a virtual address by the program headers; invariant of the cache over all call histories |
| C70 | Model/Sections and the generated table | spec: longest matching pattern; order of the table decided by the kernel, lifted to all names by a lemma on overlapping patterns |
| C71 | Model/BtfMaps: mapSpecFromBTF with one level of inner maps, uintFromBTF, resolveBTFArrayMacro, resolveBTFValuesContents; not loadBTFMaps | spec: what each macro declares; invariant over the loop of members |
| C72 | Model/BtfCopy: copyType with the copy methods, decoder.copy, with and without base, over a heap of objects whose slices carry the identity of their arrays | invariant over the recursion; termination by the number of types not yet copied; legacyBitfields left out |
| C73 | Model/BtfCache: a transition system of which decoder's maps are accessed under which locks, and one of Cache.Kernel and Cache.Module; mutexes by their specification | invariants over all interleavings; counterexample schedules |
| C74 | Model/ProgLoad: the retry loops with fuel against an arbitrary kernel function, ErrorWithLog, the lines chosen by Error | spec: Linux's log semantics (Spec/ProgLoad); measure on the log size |
| C75 | Model/StructOps: structOpsSetAttachTo, associate loop, populateStructOps from members; lookup of kernel types and map creation left out | spec: Carries; invariant over the loop of members; counterexamples by evaluation |
| C76 | Model/AttachTarget: HandleIterator, FindHandle, findTargetInModule/InKernel, findProgramTargetInKernel, the attach part of newProgramWithOptions, against an arbitrary kernel with a clock | invariant: every opened handle closed once but the iterator's; spec: first match in a static kernel |
| C77 | Model/Tracefs: the text of trace event commands, names and groups, byte by byte | spec: Linux's parser of kprobe_events and uprobe_events; the parser is run symbolically on the text |
| C78 | Model/Probe: kprobe, uprobe, tracepoint, pmuProbe, tracefsProbe, NewEvent, attachPerfEvent and Close against an arbitrary kernel with a clock; finalizers left out | invariant over histories: everything created is closed once or held by one link; Traces: what the perf event is on |
| C79 | Model/Poller: New, Wait, Close, Flush, Add of the poller as a transition system of any number of goroutines with two mutexes, epoll and eventfds | inductive invariant (mutex owners, who may know a descriptor is open), stuck states, ranking function, accounts |
| C80 | Model/DataSections: loadDataSections and assignSymbols over symbol tables with 64-bit values, sections and symbols in any order of iteration | induction over the sections with what was read so far; exact set of variables, maps, types; completeness for well-formed objects; composition with C15; counterexamples |
| C81 | Model/Batch: batchLookup(PerCPU), batchLookupCmd, cursor, nextKey with guessNonExistentKey against any kernel state machine; Spec/Batch: Linux's array and hash table batches | induction over the calls with the position of the cursor; the two Linux kernels shown to be instances; counterexamples |
| C82 | Model/MapCreate: NewMapWithOptions, newMapWithOptions, createMap, newMapFromFD, LoadPinnedMap, Pin, finalize over explicit descriptors, kernel objects and files; every system call may fail; another process may pin at any time | frame conditions for every step, composed; fixup and Compatible from C18's theorems; completeness; counterexamples |
| C83 | Model/Info: fdinfo scanner, newMapInfoFromFd, newProgramInfoFromFd with its three system calls, the getters; Spec/Info: Linux's bpf_prog_get_info_by_fd for kernel levels 4.13 to 5.16, privileges, kptr_restrict, blinding | each call's answer against the specification, composed; induction over the lines of fdinfo; counterexamples |
| C84 | Model/Syscall: BPF, getToken/findToken/newToken/tokenAttr/Capable, signal masking and signal sets; mounts and answers of the kernel are arbitrary | induction over mounts, attempts and histories of calls; bit lemmas; counterexamples |
| C85 | Model/Anchor: anchors, RawAttachProgram, RawDetachProgram, AttachTCX/AttachNetkit up to the system call, QueryPrograms; Spec/Anchor: places in a list, and Linux's mprog attach/detach/query | each anchor's flags through the kernel's position computation equal the list operation; counterexamples |
| C86 | Model/Cgroup: AttachCgroup with its fallbacks, Update, Close, over a descriptor table and an abstract kernel; Spec/Cgroup: Linux's cgroup attach/detach/link operations, what a link holds | each operation against Linux; an invariant over arbitrary histories with other processes; counterexample for override mode |
| C87 | Model/Assign: ebpfFields, assignValues, both Assign methods, over a heap of structs with reflect's read-only flags; Spec/Assign: reachability, paths, memory | fuel induction for the walk, exact set and list of paths; induction over the assignments; divergence for a self-pointing struct |
| C88 | Model/LinkIter: wrapRawLink, NewFromFD, NewFromID, LoadPinnedLink, Iterator, over a kernel whose links change with every system call; Spec/LinkIter: a program using an Iterator, Linux's link types | loop induction; an invariant over arbitrary programs |
| C89 | Model/AttachLinks: the functions creating links, over a kernel which may refuse any request and a log of requests; Spec/AttachLinks: what Linux attaches for each request | case analysis of each function; induction for the addresses of UprobeMulti; three counterexamples |
| C90 | Model/Construct: the constructors of package asm; Spec/Isa: decoder and semantics of RFC 9669 | decode of marshal for arbitrary operands, then symbolic execution per operation; two counterexamples |
| C91 | Model/ProgRun: run, Test, Benchmark; Spec/ProgRun: BPF_PROG_TEST_RUN with its user memory, for old and new kernels | induction over interruptions, case analysis of the last call; three counterexamples |
| C92 | Model/MapOps: the single-element operations with Go's kinds of arguments and destinations, zero-copy included; Spec/MapOps: the kernel's map as a dictionary, user memory, descriptors | each operation equals its dictionary step (using C12 and C53), induction over histories and over guesses; three counterexamples |
| C93 | Spec/KeepAlive: executions of a function body interleaved with the collector and other threads' opens and closes; Model/KeepAlive: uses of references and system calls of 53 API functions, in order | invariant over executions (a collected descriptor has no user, an uncollected one is open), construction of the violating execution, so exposed iff some call has no later use; decided per function by a procedure proved correct |
| C94 | Model/Features: the probes of package features as functions of the system calls' answers and of the open descriptors. Spec/Features: what Linux answers to BPF_MAP_CREATE (size of the attributes, what each of the 33 map types asks for, flags, descriptors), BPF_PROG_LOAD and BPF_LINK_CREATE, over kernels with any sets of types, flags, helpers and links | Case analysis over types and answers; a process exists on every kernel (hypotheses can be met) |
| C95 | CORERelocate (grouping by type, candidates of all targets, write back by index) and applyRelocations (targets, applying fix-ups) on top of the models of C27, C32, C33 | index sets of the groups; the slice written is the same for every permutation of the groups; failure reasons by case analysis |
| C96 | perf.NewReaderWithOptions/Close/Resume, newPerfEventRing, perfBufferSize, createPerfEvent, ringbuf.NewRawReader/Close, newRingBufEventRing, epoll.New/Close, IsPow on a process with open objects and polled descriptors | induction over the CPUs; the set of open objects before and after, under any answers of the kernel; witness for the descriptor left open |
| C97 | vdsoMemoryAddress, vdsoLinuxVersionCode on the contents of note sections, parseCPUs and NewVersion with the parts of Sscanf they use, selectVersion | induction over notes and sections encoded by an independent encoder; decimal printing and scanning; runs of CPUs as the kernel prints them |
| C98 | detectMemcgAccounting and RemoveMemlock over prlimit(2) and map creation, with interference between the calls | case analysis of the kernel; the old kernel is never taken for a new one whatever others do; witnesses for the misjudged kernel |
| C99 | the Info methods of all links, wrapRawLink, queryInfoWithString, the accessors of multi link infos, over the kernel's fill_link_info functions and the offsets of struct bpf_link_info; names and programs change between queries | case analysis on kinds; the two-query protocol for names by a general lemma; witnesses for old kernels |
| C100 | newUnsafeMemory, allocate, mapmap, unmap over an address space by pages; checkType over Go types, sizes and alignments as reflect gives them; checkVariable, VariablePointer; a process that maps, takes, drops and collects; the bodies of ReadAt/WriteAt/Get/Set in the framework of C93 | structural induction on types; invariant over histories; witnesses for the three failures |
| C101 | the table of targets, FindTarget, constraints and their evaluation, file names against go build's rules for file names, convertAll over a directory, flags | table against an independent specification of architectures; induction over lists of targets and over names; witnesses for what goes wrong |
| C102 | Identifier, collection and sorting of types, what the template declares, Close; Go maps as lists in any order | induction over names and lists; sorting is unique so order doesn't matter; case analysis of suffixes for clashes of names; witnesses |
| C103 | reading and writing of dependency files as text, paths as text, filepath.Clean, Join and Rel; a grammar of dependency files and the meaning of paths as specification | the reader inverts the grammar and the writer produces it, by induction; relative and absolute forms name the same file; witnesses |
| C104 | splitArguments as the loop over runes, splitCFlagsFromArgs, cTypes.Set; a grammar of words as specification | the loop accepts exactly the grammar (both directions, by induction on length); trimming is unique; sorted insertion |
| C105 | Model/PinWalk: FSType, readType, Load with the constructors from descriptors, the callback of WalkDir and Go's fs.WalkDir over a tree, against a loop body that is a function of the trace; Spec/PinWalk: nodes at paths, lexical order, loadable files | the walk is a loop over a sorted list of items (mutual induction on trees); trace invariants for descriptors added event by event; counterexample for per-CPU maps |
| C106 | Model/ElfMaps: the switch over sections, loadLicense, loadVersion, assignSymbols, sectionVars, loadMaps with the lists in visiting order; Spec/ElfMaps: which symbols define maps, what their bytes say, last sections of a name | loadMaps is a run over (section, symbol) pairs; success and lookups are invariant under permutation; readers against positional words; converse by uniqueness of descriptions |
| C107 | Model/KernelBtf: LoadKernelSpec, findVMLinux, loadKernelModuleSpec, Cache.Modules, LoadSpecFromReader, loadSpecFromELF, symbolOffsets over any file system, ELF parser and decoder; Spec/KernelBtf: last sections and symbols, first existing place, tidy traces | induction over sections, symbols and places with maps characterised by lookups; traces by a grammar; counterexample for the documented error |
| C108 | Model/ElfVirtual: virtual sections, struct_ops sections and variables over an oracle for TypeByName; createMap for struct_ops with a log of descriptors and system calls | equivalence of the loader with a relational specification by induction over variables and sections; order independence because a second section with variables redefines them; case analysis of createMap |
| C109 | Model/ProgHandles: a table of descriptors; newProgram as nested layers that open and close; Handle, SetHandle, Clone, Close, NewProgramFromID; histories over a user's programs and handles | each layer preserves the table up to the program's entries (a lemma about opening, inner part, closing), then an invariant: the table is a permutation of the entries of all owners, preserved by every operation |
| C110 | Model/KconfigMap: the loop over variables, FindKConfig, Parse and PutValue (C45, C46), slices with 32-bit ends, order of the map of options as a permutation | every step fills the bytes of its variable and nothing else (Fills); induction over the steps gives all variables, permutation and uniqueness of contents the independence of the order |
| C111 | `Model/Associate` (AssociateMap with the instructions changed so far, SymbolOffsets, ReferenceOffsets, Name, Tag, HasTag; SHA-1 and SHA-256 as parameters) | exact results against `Spec/Associate` by induction over the program with the part already read as invariant |
| C112 | `Model/MapAttr` (createMap's MapCreateAttr, maybeFillObjName, the second attempt, handleMapCreateError; the kernel is a function from attributes to a descriptor or an error) | exact results and calls against `Spec/MapAttr` by cases; names by induction; probes as the first of an ordered list |
| C113 | `Model/VerifierText` (Error and Format of VerifierError as bytes; fmt's flags, width and verb are arguments) | exact text against `Spec/VerifierText`; decomposition of logs into body and statistics; injectivity of indented lines by splitting at newlines |
| C114 | `Model/OnceCache` (Fscanf of a uint64, ReadUint64FromFileOnce and FeatureCache.retrieve as transition systems with explicit locks) | exactness against `Spec/OnceCache.Gives`; invariants over all reachable states, read off the event logs; no stuck state |
| C115 | `Model/MapHandles` (newMapFromParts … LoadPinnedMap, Clone, Close, Handle, newMemory/Memory over the descriptor table of `Model/ProgHandles`) | ownership invariant as a permutation between the table and the owners, preserved by every operation; exactness of each operation |
| C116 | `Model/TracefsPath` (filepath.Clean/Join by components, findTracefsInEntries, getTracefsPath, sanitizeTracefsPath, EventID, eventsFile) | resolution as a relation `Walk` in `Spec/TracefsPath`; the fold of Clean follows it, relative cleaning doesn't change where a path leads; paths determine their components |
| C117 | `Model/SpecCopy` (CollectionSpec/MapSpec/ProgramSpec/VariableSpec.Copy over objects with addresses, allocation threaded) | a copy has equal contents when addresses are forgotten and its addresses are fresh and distinct; writes to an address change no specification without it (`Spec/SpecCopy`) |
| C118 | `Model/BtfFormat` (formatType, formatState's depth, extra of all Format methods, memberNames, GoTypeName) over `Model/BtfTypes` | `Spec/BtfFormat` gives the text by levels; the recursion of formatType ends by depth and equals it; locality, completeness and length by induction on levels |
| C119 | `Model/VariableSpec` (VariableSpec.Set, Get) over `Model/Memory` (VariableSpec.Size, updateDataSection) | case analysis on value and codec; that the section's outcome depends on places and sizes only by induction on the variables |
