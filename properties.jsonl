{"id": "C01", "title": "Opcode setters touch only their own field", "statement": "OpCode.SetMode/SetSize/SetSource/SetALUOp/SetJumpOp/SetAtomicOp return an opcode whose corresponding getter yields exactly the requested value and whose class and every other defined field is unchanged; if the class does not carry the field, or the value has bits outside the field, they return InvalidOpCode.", "quantifier": "all 2^32 opcodes and all values of each field type", "why_tests_cant": "field masks overlap (an ALU op spans bits 4-13, jump op 4-7, atomic op 8-16); a table of samples does not show that no opcode is corrupted", "anchors": ["asm/opcode.go: OpCode.Set*, OpCode.Class/Mode/Size/Source/ALUOp/JumpOp/AtomicOp"]}
{"id": "C02", "title": "Instruction decode then encode is the identity on wire bytes", "statement": "If Instruction.Unmarshal accepts a byte sequence in some byte order, Instruction.Marshal of the result in the same byte order succeeds and writes exactly the bytes consumed (8 or 16).", "quantifier": "all byte sequences and both byte orders", "why_tests_cant": "the input space is 2^128 encodings with per-class special cases (atomic, sign-extending mov, signed div, dword immediates)", "anchors": ["asm/instruction.go: Instruction.Unmarshal, Instruction.Marshal"]}
{"id": "C03", "title": "Instruction encode then decode is the identity on well-formed instructions", "statement": "Marshalling a well-formed instruction (fields in range for its opcode) and unmarshalling the bytes yields the same opcode, registers, offset and constant.", "quantifier": "all well-formed instructions and both byte orders", "why_tests_cant": "needs all classes, offsets and 64 bit constants", "anchors": ["asm/instruction.go: Instruction.Unmarshal, Instruction.Marshal"]}
{"id": "C04", "title": "Instruction streams keep their boundaries", "statement": "Marshalling a program writes exactly the sum of the raw sizes of its instructions, and decoding that stream (AppendInstructions) yields the same instructions in order.", "quantifier": "all programs of any length built from well-formed instructions, both byte orders", "why_tests_cant": "a mis-sized instruction only shifts what follows it; must hold for every mix of 8 and 16 byte instructions", "anchors": ["asm/instruction.go: Instructions.Marshal, AppendInstructions, Instructions.Size"]}
{"id": "C05", "title": "Atomic operations survive encoding", "statement": "For every atomic opcode (e.g. FetchAdd.Mem) the encoded instruction denotes the same atomic operation as the opcode, i.e. decoding yields the same AtomicOp.", "quantifier": "all atomic opcodes, registers, offsets, constants", "why_tests_cant": "needs the full opcode x constant product; the constant is caller supplied", "anchors": ["asm/instruction.go: Instruction.Marshal", "asm/load_store.go: AtomicOp.Mem"]}
{"id": "C06", "title": "Symbolic jumps and calls land on their symbol", "statement": "After encoding, a jump or bpf-to-bpf call that references a symbol has a relative offset such that (own raw offset + 1 + offset) is the raw offset of the instruction carrying that symbol; an unknown symbol or a duplicate symbol is an error.", "quantifier": "all programs, symbol placements and distances", "why_tests_cant": "distances are unbounded and dword instructions occupy two slots", "anchors": ["asm/instruction.go: Instructions.encodeFunctionReferences, Instructions.SymbolOffsets, Instructions.Marshal"]}
{"id": "C07", "title": "Map references pack file descriptor and offset independently", "statement": "For a map-value load, RewriteMapOffset and AssociateMap/encodeMapFD each change only their own half of the constant: fd and offset read back independently, in any order of writes.", "quantifier": "all fds, offsets and write sequences", "why_tests_cant": "aliasing of two 32 bit halves with sign extension", "anchors": ["asm/instruction.go: encodeMapFD, mapFd, RewriteMapOffset, mapOffset"]}
{"id": "C08", "title": "Program tag ignores map file descriptors", "statement": "Instructions.Tag of two programs that differ only in the constants of their map load instructions is identical, and the tag input is otherwise the exact encoding of the program.", "quantifier": "all programs and all fd assignments", "why_tests_cant": "quantifies over pairs of programs", "anchors": ["asm/instruction.go: Instructions.Tag, Instructions.HasTag"]}
{"id": "C09", "title": "Instruction metadata behaves as an independent map", "statement": "Metadata.Set/Get behave like a finite map from key to value, and a copy of an instruction is not affected by later metadata changes to the original.", "quantifier": "all operation histories on any number of copies", "why_tests_cant": "sharing of a linked list between copies", "anchors": ["asm/metadata.go: Metadata.Get, Set, find, remove"]}
{"id": "C10", "title": "Platform constants round-trip", "statement": "Encoding a platform and a value and decoding the result returns the same pair; values that do not fit are rejected; distinct inputs never collide.", "quantifier": "all platforms and 32 bit values", "why_tests_cant": "bit packing near the tag boundary", "anchors": ["internal/platform/constants.go: EncodeConstant, DecodeConstant"]}
{"id": "C11", "title": "Linking pulls in exactly the reachable functions, once", "statement": "Flattening a program appends every function reachable through references, each exactly once, nothing unreachable, keeps the program itself first, and terminates on recursive call graphs.", "quantifier": "all call graphs", "why_tests_cant": "arbitrary graphs, including cycles and shared callees", "anchors": ["linker.go: flattenPrograms, flattenInstructions"]}
{"id": "C12", "title": "Per-CPU values round-trip through the kernel layout", "statement": "Storing a slice of per-CPU values and reading the buffer back returns the same values for every CPU, each at an 8-byte aligned stride, CPUs without a value are zero, a slice longer than the number of CPUs is rejected when storing, and a destination of another length than the number of CPUs is rejected when loading.", "quantifier": "all CPU counts, value sizes and values", "why_tests_cant": "stride arithmetic for every size and count", "anchors": ["marshalers.go: marshalPerCPUValue, appendPerCPUSlice, unmarshalPerCPUValue"]}
{"id": "C13", "title": "Batched per-CPU values keep element boundaries", "statement": "Marshalling a batch of per-CPU values places value (elem, cpu) at elem*CPUs+cpu strides and unmarshalling returns the same matrix; lengths that do not match are rejected.", "quantifier": "all batch lengths, CPU counts and sizes", "why_tests_cant": "two nested strides", "anchors": ["marshalers.go: marshalBatchPerCPUValue, unmarshalBatchPerCPUValue"]}
{"id": "C14", "title": "Map iteration is bounded and complete", "statement": "MapIterator makes at most MaxEntries+1 next-key calls per full iteration whatever the kernel answers (it ends with ErrIterationAborted otherwise), and on an unmodified map it yields every key exactly once with its value and ends without error.", "quantifier": "all kernel behaviours (adversarial), all map contents", "why_tests_cant": "concurrent modification can produce any key sequence", "anchors": ["map.go: MapIterator.Next, newMapIterator"]}
{"id": "C15", "title": "Global variable values reach the data section intact", "statement": "Loading a collection builds the data section so that every variable's bytes appear at its offset, bytes not covered by a variable keep the ELF value, overlapping or out-of-range variables are rejected, and the caller's spec is not modified.", "quantifier": "all sets of variables and sections", "why_tests_cant": "arbitrary overlap patterns and unsigned overflow", "anchors": ["map.go: MapSpec.updateDataSection"]}
{"id": "C16", "title": "Memory-mapped access stays in bounds", "statement": "Memory.WriteAt followed by ReadAt of the same range returns the written bytes, bytes outside the range do not change, no access outside the region happens, short transfers return io.EOF, read-only or closed regions are never written.", "quantifier": "all region sizes, offsets, lengths and histories", "why_tests_cant": "offset arithmetic overflow", "anchors": ["memory.go: Memory.ReadAt, Memory.WriteAt, Memory.bounds"]}
{"id": "C17", "title": "Variables are isolated windows of memory", "statement": "Variable.Set changes exactly the bytes [offset, offset+size) of the region, Get after Set returns the value, and variables with disjoint ranges do not influence each other.", "quantifier": "all layouts and operation histories", "why_tests_cant": "interleavings of operations on several variables", "anchors": ["variable.go: Variable.Set, Variable.Get, newVariable", "memory.go: Memory.bounds"]}
{"id": "C18", "title": "Ring buffer reader delivers the committed samples in order", "statement": "Reading a BPF ring buffer returns exactly the committed, non-discarded records in production order, across wrap-around of the data area and of the position counters, and never returns bytes of a record that is still busy.", "quantifier": "all producer histories and ring sizes, all reader schedules", "why_tests_cant": "needs every interleaving and wrap position", "anchors": ["ringbuf/ring.go: ringReader.readSample", "ringbuf/reader.go: Reader.ReadInto"]}
{"id": "C19", "title": "Ring buffer consumer position is safe", "statement": "The position published to the kernel never exceeds the producer position, only advances, and is always at a record boundary, so unread records are not overwritten.", "quantifier": "all schedules", "why_tests_cant": "published from a concurrent reader", "anchors": ["ringbuf/ring.go: ringReader"]}
{"id": "C20", "title": "Flush and deadline drain pending samples first", "statement": "After Flush or a passed deadline, Read returns all samples that are available before it returns ErrFlushed / os.ErrDeadlineExceeded.", "quantifier": "all sequences of wakeups and buffer contents", "why_tests_cant": "depends on the order of wakeups and data", "anchors": ["ringbuf/raw_reader.go: RawReader.ReadSample", "perf/reader.go: Reader.ReadInto"]}
{"id": "C21", "title": "Close never unmaps memory under a running read", "statement": "For the ring buffer raw reader, Close waits until no read is in flight before releasing the mapping, reads that start after Close fail with os.ErrClosed, and Close is idempotent.", "quantifier": "all interleavings of any number of readers and closers", "why_tests_cant": "race conditions", "anchors": ["ringbuf/raw_reader.go: enter, leave, Close"]}
{"id": "C22", "title": "Perf ring reader delivers records in order without tearing", "statement": "Reading a perf ring returns the bytes between tail and head in order across the wrap, advances tail by exactly the bytes read, and never reads beyond head.", "quantifier": "all ring sizes (powers of two), positions incl. 64-bit wrap, read sizes", "why_tests_cant": "wrap positions and split copies", "anchors": ["perf/ring.go: forwardReader, reverseReader"]}
{"id": "C23", "title": "Pause and Resume address the ring of each CPU", "statement": "Reader.Resume installs every per-CPU ring under its own CPU index and Pause removes exactly these entries.", "quantifier": "all sets of online CPUs", "why_tests_cant": "depends on which CPUs are offline", "anchors": ["perf/reader.go: Reader.Pause, Reader.Resume, NewReaderWithOptions"]}
{"id": "C24", "title": "BTF string table round-trip", "statement": "Every string added to a string table builder can be looked up in the encoded table at the offset returned by Add; equal strings share an offset, distinct strings have distinct offsets, the empty string is at offset 0.", "quantifier": "all sequences of strings without NUL", "why_tests_cant": "offsets depend on everything added before", "anchors": ["btf/strings.go: stringTableBuilder.Add, AppendEncoded, stringTable.Lookup"]}
{"id": "C25", "title": "BTF type header fields are independent", "statement": "Kind, Vlen, kflag (fwd kind, bitfield), linkage written to a BTF type header read back unchanged and do not disturb each other, in any order.", "quantifier": "all 2^32 words and field values", "why_tests_cant": "overlapping masks", "anchors": ["btf/btf_types.go: btfType, readBits, writeBits"]}
{"id": "C26", "title": "BTF encode/decode round-trip", "statement": "Decoding the BTF blob produced for a list of types gives back the same type graph (same kinds, names, sizes, members, offsets, references), for cyclic graphs too; unrepresentable values are rejected rather than silently changed.", "quantifier": "all type graphs", "why_tests_cant": "cyclic graphs, unbounded size, silent truncation of fields", "anchors": ["btf/marshal.go: encoder.deflateType, Builder.Marshal", "btf/unmarshal.go: decoder.inflateType"]}
{"id": "C27", "title": "Type IDs are stable and dense", "statement": "Builder.Add returns the same ID for the same type whenever it is called, distinct IDs for distinct types, and all types referenced by an added type receive an ID in the encoded blob.", "quantifier": "all sequences of Add calls and type graphs", "why_tests_cant": "ids depend on history", "anchors": ["btf/marshal.go: Builder.Add, encoder.allocateIDs"]}
{"id": "C28", "title": "Name lookup finds exactly the types with that name", "statement": "Spec.AnyTypesByName returns all types whose name is the requested name and no other; TypeByName/AnyTypeByName never panic.", "quantifier": "all specs and names incl. flavoured names", "why_tests_cant": "depends on the mix of flavours in the spec", "anchors": ["btf/btf.go: Spec.AnyTypesByName, TypeByName", "btf/unmarshal.go: newDecoder"]}
{"id": "C29", "title": "Sizeof is the C size or an error", "statement": "btf.Sizeof of a type equals the product of array lengths and base size computed over unbounded integers, or fails; it never returns a wrapped value and never diverges, even on cyclic types.", "quantifier": "all types", "why_tests_cant": "overflow of unbounded products, cyclic graphs", "anchors": ["btf/types.go: Sizeof"]}
{"id": "C30", "title": "Essential names strip exactly the flavour suffix", "statement": "The essential name of a type or field is the part before the last '___' when that part is not empty, otherwise the whole name; it is idempotent only up to repeated suffixes and never empty for a non-empty name.", "quantifier": "all strings", "why_tests_cant": "string positions", "anchors": ["btf/types.go: newEssentialName"]}
{"id": "C31", "title": "Datasec layout fix-up is aligned and non-overlapping", "statement": "After fixing up a datasec, every variable lies at an aligned offset, variables do not overlap, are in order and within the section size.", "quantifier": "all sections and variables", "why_tests_cant": "all sizes and alignments", "anchors": ["btf/types.go or elf_reader.go: fixupDatasecLayout"]}
{"id": "C32", "title": "CO-RE fix-up changes only the relocated operand", "statement": "Applying a relocation fix-up changes only the immediate or offset of the instruction, only if its current value equals the local value (unless validation is off), rejects values that do not fit, and a poisoned relocation turns the instruction into one the verifier rejects if reached.", "quantifier": "all instructions and fix-ups", "why_tests_cant": "all opcode classes x values", "anchors": ["btf/core.go: COREFixup.Apply"]}
{"id": "C33", "title": "CO-RE target selection is unambiguous and best", "statement": "Among candidate target types the chosen fix-ups have the minimal number of poisoned relocations, two best candidates that disagree cause an error, and the answer does not depend on candidate order.", "quantifier": "all candidate lists and relocations", "why_tests_cant": "all orders", "anchors": ["btf/core.go: coreCalculateFixups"]}
{"id": "C34", "title": "CO-RE bitfield reads extract the right bits", "statement": "Loading the relocated bytes and applying the relocated left and right shifts yields the value of the target bitfield, for little and big endian layouts.", "quantifier": "all field offsets, sizes, alignments, memory contents", "why_tests_cant": "bit arithmetic", "anchors": ["btf/core.go: coreField.adjustOffsetBits, coreCalculateFixup"]}
{"id": "C35", "title": "CO-RE field lookup follows the local path", "statement": "Field relocation finds the target member of the same name (through anonymous structs/unions), the offset returned is the sum of the offsets along the path, and a missing member is reported as an impossible relocation.", "quantifier": "all type pairs and accessor strings", "why_tests_cant": "all nestings", "anchors": ["btf/core.go: coreFindField, coreFindMember"]}
{"id": "C36", "title": "Type compatibility is reflexive, ignores qualifiers and terminates", "statement": "CheckTypeCompatibility accepts a type with itself, is invariant under const/volatile/typedef at any level, agrees with the rules of the libbpf comment, and terminates on cyclic types.", "quantifier": "all type pairs", "why_tests_cant": "cyclic graphs", "anchors": ["btf/core.go: coreAreTypesCompatible"]}
{"id": "C37", "title": "BTF deduplication preserves meaning", "statement": "Deduplicating types never merges two types that differ in an observable field.", "quantifier": "all pairs of types", "why_tests_cant": "needs all field combinations", "anchors": ["btf/dedup.go: deduper.typesEquivalent, hashType"]}
{"id": "C38", "title": "Type traversal visits each type once, children first", "statement": "Post-order traversal yields every type reachable from the roots exactly once, children before parents unless a cycle forces otherwise, and terminates.", "quantifier": "all graphs", "why_tests_cant": "cycles", "anchors": ["btf/traversal.go: postorder, children"]}
{"id": "C39", "title": "Line info packing round-trips", "statement": "Line and column numbers accepted when encoding line info decode to the same values; numbers that do not fit are rejected.", "quantifier": "all line/column pairs", "why_tests_cant": "bit boundaries", "anchors": ["btf/ext_info.go: lineInfo"]}
{"id": "C40", "title": "Deque behaves as a queue", "statement": "internal.Deque behaves like a list under Push, Shift, Pop and Grow for any history, never losing or reordering elements.", "quantifier": "all operation histories", "why_tests_cant": "ring index wrap and growth", "anchors": ["internal/deque.go"]}
{"id": "C41", "title": "Alignment helper", "statement": "Align(n, a) is the least multiple of a that is >= n for power-of-two a when no overflow occurs; IsPow is true exactly for powers of two.", "quantifier": "all n, a", "why_tests_cant": "all word values", "anchors": ["internal/math.go"]}
{"id": "C42", "title": "Feature probes are cached correctly under concurrency", "statement": "A conclusive probe result (supported or ErrNotSupported) is computed at most once and all later calls return it; an inconclusive error is never cached; no two callers run a probe at the same time.", "quantifier": "all interleavings and probe outcomes", "why_tests_cant": "races", "anchors": ["internal/feature.go: FeatureTest.execute"]}
{"id": "C43", "title": "File descriptors are closed exactly once and never zero", "statement": "A wrapped fd is never 0 or negative; whatever sequence of Close, Disown, File, Dup is executed, each kernel descriptor is closed at most once and never after ownership was given away.", "quantifier": "all operation histories", "why_tests_cant": "histories", "anchors": ["internal/sys/fd.go, internal/sys/fd_other.go"]}
{"id": "C44", "title": "Kernel symbol lookup is exact", "statement": "Symbol lookup assigns to each requested symbol the address of its unique line, leaves missing symbols at zero, rejects ambiguous or restricted symbols, and the cache never changes the outcome of a later successful lookup.", "quantifier": "all kallsyms contents and request histories", "why_tests_cant": "all inputs", "anchors": ["internal/kallsyms/kallsyms.go"]}
{"id": "C45", "title": "Kernel config parsing takes the first assignment", "statement": "Parsing returns, for each requested option that is set, the value of its first assignment, independent of the early exit.", "quantifier": "all files and filters", "why_tests_cant": "all inputs", "anchors": ["internal/kconfig/kconfig.go: Parse"]}
{"id": "C46", "title": "Kernel config integers are stored exactly or rejected", "statement": "PutInteger writes an encoding of n of the declared size that reads back as n, or fails.", "quantifier": "all sizes, encodings, values", "why_tests_cant": "boundaries", "anchors": ["internal/kconfig/kconfig.go: PutInteger"]}
{"id": "C47", "title": "Version comparison is a strict order compatible with KERNEL_VERSION", "statement": "Version.Less is a strict total order; NewVersionFromCode(v.Kernel()) = v for versions whose parts fit a byte, and Kernel() is monotone on them.", "quantifier": "all versions", "why_tests_cant": "all triples", "anchors": ["internal/version.go"]}
{"id": "C48", "title": "Mount table parsing inverts the kernel's escaping", "statement": "Parsing a mountinfo line produced by the kernel yields the original mount point, root and filesystem type, for every path.", "quantifier": "all paths", "why_tests_cant": "all escape combinations", "anchors": ["internal/mountinfo/mountinfo.go: parseLine, unescape"]}
{"id": "C49", "title": "Collection loading owns every resource exactly once", "statement": "When LoadAndAssign or NewCollection fails, every map and program it opened is closed; when it succeeds exactly the assigned objects stay open and everything else is closed; nothing is closed twice.", "quantifier": "all specs, failure points, iteration orders", "why_tests_cant": "every possible failure point", "anchors": ["collection.go: LoadAndAssign, NewCollectionWithOptions, collectionLoader"]}
{"id": "C50", "title": "Every loaded map is populated", "statement": "When loading succeeds, every map that was created has received its declared contents (and constant sections are frozen) whatever the map iteration order.", "quantifier": "all specs, all Go map iteration orders", "why_tests_cant": "Go map iteration order is random", "anchors": ["collection.go: populateDeferredMaps, loadMap"]}
{"id": "C51", "title": "Replacement maps must match", "statement": "A map is accepted as replacement or pinned map only if type, key size, value size, max entries and flags equal the (fixed-up) spec, modulo the devmap read-only flag; checking compatibility does not modify the spec.", "quantifier": "all specs and maps", "why_tests_cant": "combination of fix-ups", "anchors": ["map.go: MapSpec.Compatible, fixupMagicFields"]}
{"id": "C52", "title": "Pinning state follows the filesystem", "statement": "Pin, re-Pin and Unpin keep exactly one pin per object, never overwrite an existing pin, and failed calls leave the recorded state unchanged.", "quantifier": "all histories and filesystem states", "why_tests_cant": "histories incl. external removal", "anchors": ["map.go: Map.Pin, Map.Unpin", "internal/sys/pinning_other.go"]}
{"id": "C53", "title": "Zero-copy marshalling is indistinguishable from encoding/binary", "statement": "Whether a key or value is passed by value or through a pointer, and whether or not the library lets the kernel read or write its memory directly, the bytes exchanged with the kernel and the resulting value are those of encoding/binary; sizes that do not match are rejected.", "quantifier": "all fixed-size types, memory layouts, values and sizes", "why_tests_cant": "the choice depends on padding, unexported and blank fields of arbitrarily nested types", "anchors": ["internal/sysenc/marshal.go: Marshal, Unmarshal, unsafeBackingMemory", "internal/sysenc/layout.go", "internal/sysenc/buffer.go: SyscallOutput"]}
{"id": "C54", "title": "Batched per-CPU lookup returns the matrix or an error", "statement": "Map.BatchLookup on a per-CPU map returns value (elem, cpu) at index elem*CPUs+cpu of a destination of count*CPUs elements, and rejects destinations of another length.", "quantifier": "all batch lengths, CPU counts, value sizes, destination lengths", "why_tests_cant": "the zero-copy shortcut is chosen by total byte size", "anchors": ["map.go: batchLookupPerCPU", "internal/sysenc/buffer.go: SyscallOutput"]}
{"id": "C55", "title": "No ring buffer method touches unmapped memory", "statement": "No method of ringbuf.Reader or RawReader accesses the shared ring memory after Close has released it.", "quantifier": "all interleavings of reads, AvailableBytes and Close", "why_tests_cant": "requires the method to run during or after the unmapping", "anchors": ["ringbuf/raw_reader.go: AvailableBytes, WithLease, Close", "ringbuf/ring.go: available"]}
{"id": "C56", "title": "TypeByID is stable and injective on any BTF", "statement": "Once Spec.TypeByID returned a type for an ID it returns the same object for that ID for ever, whatever calls succeed or fail in between, different IDs give different objects, and no object changes its name, for arbitrary (also malformed) BTF.", "quantifier": "all blobs, all histories of calls", "why_tests_cant": "histories with failing calls, cyclic types", "anchors": ["btf/unmarshal.go: decoder.TypeByID, inflateType"]}
{"id": "C57", "title": "CO-RE type matching follows the documented rules", "statement": "bpf_core_type_matches relocations report a match exactly if the types match by the documented rules (names up to flavour, same kinds, equal integer sizes and signedness, every local member present in the target and matching, every local enum variant present, forward declarations behind pointers), on every type graph including recursive ones; the check always terminates.", "quantifier": "all pairs of finite type graphs", "why_tests_cant": "recursive types need coinduction; members and visited pairs interact", "anchors": ["btf/core.go: coreTypesMatch, coreEnumsMatch, coreEncodingMatches, coreEssentialNamesMatch", "btf/types.go: Fwd.matches"]}
{"id": "C58", "title": "Metadata reaches the instruction it belongs to", "statement": "Function info, line info and CO-RE relocations read from .BTF.ext or from the kernel end up on the instruction at their offset and on no other, whatever the mix of wide and narrow instructions.", "quantifier": "all instruction streams and record lists", "why_tests_cant": "depends on every combination of instruction widths and offsets", "anchors": ["elf_reader.go: assignMetadata, take", "info.go: Instructions", "btf/ext_info.go: AssignMetadataToInstructions"]}
{"id": "C59", "title": ".BTF.ext parsing is exact", "statement": "A .BTF.ext section is accepted exactly if it is well formed (header with or without CO-RE fields, sections with known non-empty names and at least one record, record sizes as expected, offsets that are multiples of the instruction size), and yields the records it contains with instruction offsets; accessor strings are exactly colon-separated decimal numbers below 2^31.", "quantifier": "all byte strings and string tables", "why_tests_cant": "arbitrary, also malformed, sections", "anchors": ["btf/ext_info.go: loadExtInfos, parseBTFExtHeader, parseBTFExtCOREHeader, parseFuncInfos, parseLineInfos, parseCORERelos", "btf/core.go: parseCOREAccessor"]}
{"id": "C60", "title": "Map.Memory covers the whole map", "statement": "The memory region of an mmapable array or arena spans every value of the map, in whole pages.", "quantifier": "all value sizes, entry counts and page sizes", "why_tests_cant": "arithmetic overflow at 4 GiB", "anchors": ["map.go: Map.Memory, Map.memorySize", "internal/math.go: Align"]}
{"id": "C61", "title": "References to kernel variables resolve to that variable", "statement": "Loading a program replaces every reference to an untyped kernel symbol by the address on the only line of that symbol in /proc/kallsyms, and every reference to a typed kernel variable by the BTF id of that variable and the descriptor of the module holding it, which stays open during the load; weak references to missing symbols become zero or stay as they are, required ones fail the load; no other instruction changes and no module handle leaks.", "quantifier": "all programs, symbol tables, histories of lookups, kernel answers", "why_tests_cant": "depends on the kernel's symbols, the lookup cache and the order of references", "anchors": ["linker.go: resolveKsymReferences, applyUntypedKsymFixups, applyTypedKsymFixups, handles", "asm/instruction.go: AssociateBTFID"]}
{"id": "C62", "title": "Calls of kernel functions resolve to that function", "statement": "Loading a program gives every kfunc reference the BTF id of that function and an index into the descriptor table whose entry is the module holding the function; weak calls to missing functions are poisoned and weak loads give zero; all other instructions, symbols and references are kept; the procedure ends, and every module handle acquired is closed on failure.", "quantifier": "all programs and kernel answers", "why_tests_cant": "depends on the kernel's modules, the number of references and their positions", "anchors": ["linker.go: fixupKfuncs, handles.add, handles.fdArray", "prog.go: findTargetInKernel"]}
{"id": "C63", "title": "Reads of extern kconfig variables go to one populated map", "statement": "Loading a program with references to .kconfig creates exactly one map, and every reference reads from that map at the offset of its variable; programs that refer to two .kconfig sections are rejected; on failure the map is closed.", "quantifier": "all programs", "why_tests_cant": "any number and placement of references", "anchors": ["linker.go: resolveKconfigReferences"]}
{"id": "C64", "title": "No program reaches the kernel with a dangling map reference", "statement": "A program is rejected before loading exactly if a map load tagged with a map has not been given one; the only other change made at this point is that calls of the newer probe-read helpers become calls of the older ones of the same kind, on kernels lacking them.", "quantifier": "all programs, kernels with and without the helpers", "why_tests_cant": "arbitrary instruction streams", "anchors": ["linker.go: fixupAndValidate, fixupProbeReadKernel"]}
{"id": "C65", "title": "Loading a collection fails only for a reason", "statement": "LoadAndAssign and NewCollection succeed when every referenced name is defined, no field is requested twice, every populated program array is assigned, and no kernel operation fails; conversely LoadAndAssign never succeeds while leaving a populated program array unassigned.", "quantifier": "all specs, structs and iteration orders", "why_tests_cant": "arbitrary reference graphs and orders", "anchors": ["collection.go: LoadAndAssign, NewCollectionWithOptions, assignValues"]}
{"id": "C66", "title": "Relocations in an object lead to what they name", "statement": "In the CollectionSpec loaded from an ELF object every call, function pointer, variable and map reference refers to the function, offset or map that the relocation (or, without one, the relative offset) designates by the ELF ABI for BPF: symbol value plus addend; the first instruction of each function, and only it, carries the function's name, and other instructions are as in the file.", "quantifier": "all objects: sections, symbol tables, relocation records, instructions", "why_tests_cant": "depends on every combination of symbol type, binding, addend and position", "anchors": ["elf_reader.go: relocateInstruction, referenceRelativeJump, jumpTarget, loadFunctions, assignSymbols, loadSectionRelocations"]}
{"id": "C67", "title": "A program loaded from an object runs the code of the object", "statement": "A program of a CollectionSpec, after linking and encoding, consists of its own code and the code of the functions it reaches, and each bpf-to-bpf call and function pointer continues at the first instruction of the function the object says.", "quantifier": "all objects, call graphs and programs in them", "why_tests_cant": "composition of reader, linker and encoder over arbitrary call graphs", "anchors": ["elf_reader.go: loadProgramSections, loadFunctions", "linker.go: flattenPrograms", "asm/instruction.go: encodeFunctionReferences"]}
{"id": "C68", "title": "Go types generated for C types have their layout", "statement": "The Go declaration that GoFormatter (and so bpf2go) writes for a C type has the size of the C type, and every member, variable of a data section and first member of a union is a field at its C offset whose Go type in turn represents its type; enum constants have the values of the C enum and fit the Go type.", "quantifier": "all type graphs with the ordinary C layout, all sets of already named types, 4 and 8 byte words", "why_tests_cant": "depends on the interplay of Go's alignment and padding rules with arbitrary nested types", "anchors": ["btf/format.go: GoFormatter.TypeDeclaration, writeTypeDecl, writeTypeLit, writeType, writeStructLit, writeStructField, writeDatasecLit, writePadding"]}
{"id": "C69", "title": "Uprobes are placed at the code of the function", "statement": "Attaching a uprobe by name places it at the file offset of the first byte of that function plus the given offset, whatever was asked of the Executable before; an explicit address is used as is; Symbol returns the function whose code holds an offset; UprobeMulti resolves each of its symbols that way.", "quantifier": "all ELF files, all histories of calls", "why_tests_cant": "arbitrary segment layouts and symbol tables, and a cache filled on first use", "anchors": ["link/uprobe.go: Executable.address, load, lazyLoadSymbols, Symbol", "link/uprobe_multi.go: Executable.addresses"]}
{"id": "C70", "title": "Section names select the program type of the most specific pattern", "statement": "The program type, attach type, flags and attach target of a program are those of the longest pattern of the section table that matches the name of its section, regardless of the order of the table; names matching no pattern leave the type unspecified.", "quantifier": "all section names", "why_tests_cant": "infinitely many names, and overlapping patterns", "anchors": ["elf_reader.go: getProgType, matchSectionName", "elf_sections.go: elfSectionDefs"]}
{"id": "C71", "title": "BTF map definitions give the map they describe", "statement": "A MapSpec read from a BTF map definition has the type, sizes, number of entries, flags, pinning, key and value types and inner map that the definition declares, and its contents are the programs or maps named in `values` at their indices; every well-formed definition is accepted.", "quantifier": "all definitions and type graphs, all relocations", "why_tests_cant": "arbitrary members in any order with any types", "anchors": ["elf_reader.go: mapSpecFromBTF, uintFromBTF, resolveBTFArrayMacro, resolveBTFValuesContents, valuesRelocations"]}
{"id": "C72", "title": "Copies of types and specs are independent and identical", "statement": "Copy and Spec.Copy give a type graph of the same shape and contents as the original that shares no object and no slice with it, keep the IDs of all types of the spec, leave the original unchanged, and end also on cyclic types.", "quantifier": "all type graphs, all sets of already decoded types, split and plain specs", "why_tests_cant": "arbitrary sharing and cycles", "anchors": ["btf/types.go: Copy, copyType", "btf/unmarshal.go: decoder.Copy, decoder.copy", "btf/btf.go: Spec.Copy"]}
{"id": "C73", "title": "Specs and caches can be shared by goroutines", "statement": "Any number of goroutines may look up types, get IDs and copy specs at the same time without two of them accessing the same data while one writes; concurrent calls on a Cache return one spec per module, based on the one kernel spec.", "quantifier": "all interleavings of any number of goroutines", "why_tests_cant": "schedules", "anchors": ["btf/unmarshal.go: TypeByID, inflateType, TypeID, copy", "btf/kernel.go: Cache.Kernel, Cache.Module"]}
{"id": "C74", "title": "Loading ends and errors carry the whole verifier log", "statement": "Loading a program or BTF makes a bounded number of attempts whatever the kernel answers; on a kernel with Linux's log semantics, an error that is reported carries the kernel's verdict and its complete log, cut into lines; the one-line summary ends with the last line of the log that is not statistics.", "quantifier": "all kernels' replies, all logs and start sizes", "why_tests_cant": "arbitrary kernel behaviour across retries", "anchors": ["prog.go: newProgramWithOptions, retryLogAttrs", "btf/handle.go: NewHandleFromRawBTF", "internal/errors.go: ErrorWithLog, VerifierError.Error"]}
{"id": "C75", "title": "struct_ops maps hold the struct of the object", "statement": "The value put into a struct_ops map holds each member of the object's struct in the kernel's member of the same name, function pointers being descriptors of the programs the object names, everything else zero; members the kernel does not have are only ignored if zero.", "quantifier": "all struct layouts of object and kernel, all sets of programs and relocations, all iteration orders", "why_tests_cant": "arbitrary layouts", "anchors": ["struct_ops.go: structOpsCopyMember, structOpsPopulateValue, structOpsSetAttachTo", "collection.go: populateStructOps", "elf_reader.go: associateStructOpsRelocs"]}
{"id": "C76", "title": "Programs attach to the kernel type they name and BTF handles are closed", "statement": "A program with AttachTo attaches to the kernel type its program and attach type stand for, taken from the kernel proper or else from the first loaded module that has it, with that module's BTF; struct_ops programs use the index of the named member; a missing target is ErrNotSupported. FindHandle returns the first matching handle. The searches end, and every BTF handle opened by them is closed exactly once by the time the call returns, unless it is the result.", "quantifier": "all kernels, modules and histories of system call results", "why_tests_cant": "arbitrary sets of BTF objects, failures at any call", "anchors": ["prog.go: newProgramWithOptions, findProgramTargetInKernel, findTargetInKernel, findTargetInModule", "btf/handle.go: FindHandle, HandleIterator"]}
{"id": "C77", "title": "Trace events ask the kernel for the probe that was asked for", "statement": "What is written to kprobe_events or uprobe_events is one command that Linux reads as the probe of the arguments: entry or return, number of instances, group, event name, symbol or path, offset and reference counter; removing an event names that event only. Event names are the symbol with runs of other characters replaced by one underscore; groups are valid, at most 63 long and differ for different random values.", "quantifier": "all symbols, paths, offsets and options", "why_tests_cant": "text formats with arbitrary contents", "anchors": ["internal/tracefs/kprobe.go: NewEvent, sanitizeIdentifier, validIdentifier, RandomGroup, KprobeToken, removeEvent", "internal/tracefs/uprobe.go: UprobeToken", "link/kprobe.go: isValidKprobeSymbol"]}
{"id": "C78", "title": "Probe links own what they create", "statement": "Kprobe, Kretprobe, Uprobe, Uretprobe and Tracepoint leave no trace event, perf event or link behind when they fail; if they succeed the link holds all that was created, on the symbol (plain, or with the platform's prefix), offset, process and cookie that were asked for, and Close releases each of them exactly once; a second Close does nothing.", "quantifier": "all kernels, arguments and histories of attaching and closing, any failing system call", "why_tests_cant": "failures at any point of a sequence of system calls with two ways of attaching and retries", "anchors": ["link/kprobe.go: Kprobe, kprobe, pmuProbe, tracefsProbe", "link/uprobe.go: Uprobe, uprobe", "link/tracepoint.go: Tracepoint", "link/perf_event.go: attachPerfEvent, perfEvent.Close, perfEventLink.Close", "internal/tracefs/kprobe.go: NewEvent, Event.Close"]}
{"id": "C79", "title": "Close and Flush wake waiting readers, and nothing is used after it was closed", "statement": "Whatever the interleaving of concurrent Wait, Close, Flush and Add: no file descriptor is used after it was closed, each is closed once; once Close was called every call returns after a bounded number of steps, a pending Flush wakes a waiting Wait and is not lost; ErrClosed and ErrFlushed are only returned if Close or Flush was called; after closing every call returns ErrClosed; a failing New leaves no descriptor open.", "quantifier": "all interleavings of any number of goroutines, all answers of epoll_wait", "why_tests_cant": "schedules", "anchors": ["internal/epoll/poller.go: New, Poller.Close, Add, Wait, Flush"]}
{"id": "C80", "title": "Global variables of an object", "statement": "Loading an object gives a VariableSpec for exactly the exported symbols of its data sections (visible, global or weak, not compiler-internal), each with its section, offset, bytes and the type the section's Datasec lists for it, and a MapSpec for exactly the data sections in use, holding their bytes. Which variables there are does not depend on map iteration order, what a correct compiler produces is accepted, and writing unmodified variables back leaves a section as it was.", "quantifier": "every object (symbol table, sections, Datasecs) and every order in which Go iterates over sections and symbols", "why_tests_cant": "the iteration order of Go maps is random, and objects with statics and globals of one name in different sections come from linking several translation units", "anchors": ["elf_reader.go: loadDataSections, assignSymbols, isConstantDataSection", "variable.go: VariableSpec"]}
{"id": "C81", "title": "Batched iteration gives every element once and stays inside its buffers", "statement": "Calling BatchLookup or BatchLookupAndDelete with one cursor until ErrKeyNotExist gives every element of an unchanging map exactly once, whatever the batch sizes, and the loop ends; batches that are too small and failures in between lose nothing. No system call has a cursor, key or value buffer smaller than the kernel writes, whatever maps a cursor is used with. NextKey(nil) gives the first key also on kernels that do not support asking for it.", "quantifier": "every map (arrays and hash tables of any size), every sequence of batch sizes and maps, every kernel reply", "why_tests_cant": "the cursor is opaque kernel state carried over a history of calls", "anchors": ["map.go: batchLookup, batchLookupPerCPU, batchLookupCmd, MapBatchCursor, batchUpdate, BatchDelete, nextKey, guessNonExistentKey"]}
{"id": "C82", "title": "Creating a map is all or nothing and reuses only what suits", "statement": "NewMapWithOptions returns either an error, with no descriptor left open and none closed twice, or one new descriptor. The map behind it is new, empty and as the spec asks for (a map in a map has a template as InnerMap asks for), or, for PinByName, the map that was pinned at PinPath/Name before and that suits the spec; one that does not suit is refused with ErrMapIncompatible. With PinByName the returned map is the one pinned at that path, also if another process pins there at the same time; no other file and no other map changes, and no existing file is replaced or removed. The contents of the spec are added and .rodata and .kconfig are frozen. A spec that makes sense is created even if the kernel refuses its BTF.", "quantifier": "every spec, every state of the descriptor table and bpffs, every combination of failing system calls", "why_tests_cant": "every combination of failures at every step, races with other processes", "anchors": ["map.go: NewMapWithOptions, newMapWithOptions, createMap, newMapFromFD, newMapFromParts, LoadPinnedMap, Pin, finalize", "internal/sys/syscall.go: ObjGetTyped"]}
{"id": "C83", "title": "What is reported about programs and maps is what the kernel has", "statement": "ProgramInfo and MapInfo report the kernel's values, on every kernel version: a value is the kernel's one or it is reported as not available (zero where there is no way to tell). Instructions are ErrRestrictedKernel if the kernel hides them and ErrNotSupported without privileges; addresses and compiled code are only available if the kernel shows them. The calls never fail on a valid program, also if maps are added to it in between, and never ask for more than there is memory for. Values missing from the system call are taken from fdinfo, which never overrides what is known.", "quantifier": "every program and map, kernel version, privilege level, restriction and fdinfo contents", "why_tests_cant": "the combination of kernel versions, privileges and restrictions can't be set up in tests", "anchors": ["info.go: newMapInfoFromFd, readMapInfoFromProc, newProgramInfoFromFd, readProgramInfoFromProc, scanFdInfoReader, MapIDs, Instructions, JitedKsymAddrs, JitedInsns, JitedLineInfos, JitedFuncLens"]}
{"id": "C84", "title": "The system call wrapper repeats, delegates and reports correctly and leaves no trace", "statement": "Every bpf system call is made once with the caller's attributes; loading a program is repeated for as long as it is interrupted (EAGAIN) and only then. If a bpffs delegates a token, creating maps and loading programs and BTF use it: the token of the first mount that gives one, found once per process, its descriptor being the only one left open; mounts without a token are passed over, unexpected errors are reported. The kernel's error number is always in the error, ErrTokenCapabilities only for EPERM with a token that doesn't allow the operation (or doesn't tell). While loading and running programs the profiler's signal, and no other, is blocked on a locked thread; afterwards the thread is as before.", "quantifier": "every sequence of calls, every set of mounts, every answer of the kernel", "why_tests_cant": "failures of any system call on any mount, signals arriving at any time", "anchors": ["internal/sys/syscall_other.go: BPF", "internal/sys/token.go: getToken, findToken, newToken, tokenAttr, Token.Capable", "internal/sys/signals.go: maskProfilerSignal, unmaskProfilerSignal, sigsetAdd"]}
{"id": "C85", "title": "Several programs on one hook are attached where they were asked for", "statement": "RawAttachProgram, AttachTCX and AttachNetkit put the program at the hook and place its anchor names (first, last, before or after a program or link given by descriptor or ID, instead of a program; last without an anchor), leave the order of all others as it was, and fail with nothing changed if there is no such place, if the expected revision is not the current one, if the program is attached already or if the anchor is closed. RawDetachProgram removes the given program and nothing else. QueryPrograms returns the programs with their links, in order, as of one moment.", "quantifier": "every list of attached programs and links, anchor, revision and set of descriptors", "why_tests_cant": "the order is kept by the kernel and shared between processes; combinations of list contents and anchors are unbounded", "anchors": ["link/anchor.go: Head, Tail, BeforeLink, AfterLink, BeforeLinkByID, AfterLinkByID, BeforeProgram, AfterProgram, ReplaceProgram, BeforeProgramByID, AfterProgramByID, ReplaceProgramByID", "link/program.go: RawAttachProgram, RawDetachProgram", "link/tcx.go: AttachTCX", "link/netkit.go: AttachNetkit", "link/query.go: QueryPrograms"]}
{"id": "C86", "title": "Links to cgroups hold one program each, on every kernel", "statement": "AttachCgroup attaches the program last to that cgroup and attach type, by a link or, on kernels without links, by PROG_ATTACH, and changes nothing else; if it fails no descriptor and no program is left. The link has descriptors of its own. Update replaces the link's program in place or changes nothing, Close detaches it and nothing else and closes the descriptors. After any history of these, with other processes attaching and detaching their own programs, every open link has its own program attached and nothing is attached or open that belongs to no one.", "quantifier": "all histories, any number of links, every failure, every kernel since 5.5", "why_tests_cant": "histories of several processes with failures at any system call, on kernels of different versions", "anchors": ["link/cgroup.go: AttachCgroup, newProgAttachCgroup, progAttachCgroup.Update, progAttachCgroup.Close, newLinkCgroup", "link/program.go: RawAttachProgram, RawDetachProgram", "link/link_other.go: AttachRawLink", "link/link.go: RawLink.Update, RawLink.Close", "prog.go: Program.Clone"]}
{"id": "C87", "title": "Assigning objects to a struct fills exactly the tagged fields and moves ownership", "statement": "CollectionSpec.Assign and Collection.Assign set every field with an `ebpf` tag, in the struct itself, in structs in it and in structs it points to, to the object of that type and name, and no other memory. They succeed if all objects exist, no object is asked for twice, no tag has a comma, all tagged fields can be set, and no untagged pointer to a struct is nil; otherwise the error says which of these it is. After Collection.Assign each object belongs to the collection or to exactly one field; if it fails, to the collection. A struct that points to itself is rejected.", "quantifier": "every struct, however nested or linked, and every collection", "why_tests_cant": "the graphs of structs and pointers are unbounded", "anchors": ["collection.go: ebpfFields, assignValues, CollectionSpec.Assign, Collection.Assign"]}
{"id": "C88", "title": "Links obtained from the kernel have one descriptor each, and iterating misses none", "statement": "NewFromID and LoadPinnedLink return a link with a new descriptor for the link of that ID or pin, NewFromFD one with the given descriptor, of the Go type for the kind of link; on error no descriptor is left open (NewFromFD closes the one it was given). An Iterator shows links in ascending order of their IDs, each once; when Next has returned false without an error every link that existed throughout has been shown, whatever other links came and went. It holds at most one descriptor, none after Next has returned false or after Close; links taken stay open and belong to the caller. Next always returns.", "quantifier": "every sequence of links created and removed by others between any two system calls, every failure, every use of Next, Take and Close", "why_tests_cant": "the set of links changes under the iteration", "anchors": ["link/link.go: NewFromFD, NewFromID, LoadPinnedLink, Iterator.Next, Iterator.Take, Iterator.Close", "link/link_other.go: wrapRawLink"]}
{"id": "C89", "title": "A link is created for exactly what was asked, or nothing is attached", "statement": "AttachRawLink, AttachXDP, AttachNetNs, AttachFreplace, AttachTracing, AttachLSM, AttachRawTracepoint, KprobeMulti, KretprobeMulti, UprobeMulti, UretprobeMulti, AttachNetfilter, AttachIter and AttachStructOps, if they succeed, have attached the program once, to the target, function, symbols, addresses, offsets, with the flags, cookies, reference counters, PID and priority given, each place with its own cookie; a program of the wrong type is refused; a cookie is never dropped. The link returned has the Go type of what was created. If they fail, nothing is attached and no descriptor is left open. They succeed if the kernel accepts, with or without BPF_LINK_CREATE where an older interface exists, and report a kernel that can't do it with ErrNotSupported and missing symbols with ErrNotExist.", "quantifier": "every combination of options, every kernel, every failure of every system call", "why_tests_cant": "options may be of any length, and each of them may or may not be supported", "anchors": ["link/link_other.go: AttachRawLink", "link/xdp.go: AttachXDP", "link/netns.go: AttachNetNs", "link/tracing.go: AttachFreplace, attachBTFID, AttachTracing, AttachLSM", "link/raw_tracepoint.go: AttachRawTracepoint", "link/kprobe_multi.go: kprobeMulti", "link/uprobe_multi.go: uprobeMulti, addresses", "link/netfilter.go: AttachNetfilter", "link/iter.go: AttachIter", "link/struct_ops.go: AttachStructOps"]}
{"id": "C90", "title": "Constructed instructions do what they are named after", "statement": "An instruction made with the constructors of package asm (ALUOp.Reg, Imm, Reg32, Imm32, HostTo, BSwap, JumpOp.Reg, Imm, Reg32, Imm32, Label, LongJump, Return, BuiltinFunc.Call, LoadMem, LoadMemSX, LoadImm, LoadMapPtr, LoadMapValue, LoadAbs, LoadInd, StoreMem, StoreImm, StoreXAdd, AtomicOp.Mem, LoadAcquire, StoreRelease), marshalled, is executed by a machine following RFC 9669 as the operation the constructor is named after, with the operand width, registers, immediates, offsets and byte order given; combinations which don't exist are refused, not encoded as something else.", "quantifier": "every constructor, every register, every immediate, offset and size, both byte orders, every state of the machine", "why_tests_cant": "the combinations are not enumerable, and an instruction's meaning depends on all of the machine's state", "anchors": ["asm/alu.go: HostTo, BSwap, ALUOp.Reg, ALUOp.Imm, ALUOp.Reg32, ALUOp.Imm32", "asm/jump.go: JumpOp.Imm, JumpOp.Imm32, JumpOp.Reg, JumpOp.Reg32, JumpOp.Label, LongJump, Return", "asm/load_store.go: LoadMem, LoadMemSX, LoadImm, LoadMapPtr, LoadMapValue, LoadInd, LoadAbs, StoreMem, StoreImm, StoreXAdd, AtomicOp.Mem, LoadAcquire, StoreRelease", "asm/func.go: BuiltinFunc.Call", "asm/instruction.go: Marshal"]}
{"id": "C91", "title": "Running a program gives what the program gave, and each argument reaches it", "statement": "Program.Run, Test and Benchmark run the program with exactly the data, context, repetitions, flags, CPU and batch size given; if they succeed the return value, duration, all of the output data (DataOut is resliced to it) and the context are those of the program's last run, however often the system call was interrupted; Reset is called once for each interruption. Output which doesn't fit is an error, never truncated; the kernel doesn't write outside the buffers, or the process panics. They return once they aren't interrupted any more, don't panic otherwise, report a kernel that can't with ErrNotSupported and succeed if the kernel does.", "quantifier": "every program, input, option and kernel version, every pattern of signals", "why_tests_cant": "interruptions and kernel versions can't be enumerated, and the results depend on them", "anchors": ["prog.go: Program.Run, Program.Test, Program.Benchmark, Program.run", "internal/sys/ptr.go: UnsafeSlicePointer"]}
{"id": "C92", "title": "A map behaves as the dictionary it is", "statement": "Put, Update, Delete, Lookup, LookupAndDelete, LookupBytes, NextKey and NextKeyBytes act on the map as on a dictionary from encoded keys to encoded values: after any history of operations and changes by others a lookup gives the value put last (for each CPU in per-CPU maps, as a handle of its own for nested maps and programs, the handle held before being closed); conditions (UpdateNoExist, UpdateExist) are checked atomically; ErrKeyNotExist is returned exactly for missing keys and ErrKeyExist for existing ones; NextKey(nil) gives the first key on every kernel. An operation that fails changes nothing: neither the map, nor the destination, nor the descriptors. The kernel never touches memory outside of the Go values given.", "quantifier": "every map type and size, every contents, every key, value and destination type, every history, every kernel answer", "why_tests_cant": "histories, contents and the types of keys and values can't be enumerated", "anchors": ["map.go: Lookup, LookupWithFlags, LookupAndDelete, LookupAndDeleteWithFlags, LookupBytes, lookupPerCPU, lookupAndDeletePerCPU, ensurePerCPUSlice, Put, Update, updatePerCPU, Delete, NextKey, NextKeyBytes, nextKey, guessNonExistentKey, marshalKey, marshalValue, unmarshalValue, unmarshalMap, marshalMap, newMapFromParts", "marshalers.go: marshalMapSyscallInput, makeMapSyscallOutput", "prog.go: marshalProgram, unmarshalProgram", "syscalls.go: wrapMapError", "internal/sysenc/buffer.go: SyscallOutput, Buffer.Unmarshal"]}
{"id": "C93", "title": "The garbage collector never closes a descriptor a system call is about to use", "statement": "Objects of the library are closed by the garbage collector once nothing refers to them. Whenever a function of the API hands a descriptor number to the kernel, that number still stands for the object it was taken from, whatever the collector does and whatever other threads open and close meanwhile: for the objects passed to the function even if the call is their last use, and for the descriptors the function makes for itself.", "quantifier": "every schedule of the collector and of other threads opening and closing descriptors, every path through each function, every set of objects the caller goes on holding", "why_tests_cant": "a collection would have to run within a few instructions, and its effect depends on other threads", "anchors": ["internal/sys/fd.go: newFD", "internal/sys/syscall.go: ObjInfo", "internal/sys/pinning_other.go: Pin", "map.go: Lookup, LookupBytes, Update, Delete, nextKey, batchLookupCmd, batchUpdate, BatchDelete, Memory, Clone, Freeze, newMapWithOptions, createMap", "prog.go: newProgramWithOptions, run, BindMap, Clone", "info.go: newMapInfoFromFd, newProgramInfoFromFd", "collection.go: populateStructOps", "link/program.go: RawAttachProgram, RawDetachProgram", "link/link.go: UpdateArgs, Detach", "link/iter.go: AttachIter, Open", "link/tracing.go: AttachFreplace, attachBTFID", "link/link_other.go: AttachRawLink", "link/cgroup.go: AttachCgroup, Close, Update", "link/tcx.go: AttachTCX", "link/netkit.go: AttachNetkit", "link/perf_event.go: attachPerfEvent", "ringbuf/raw_reader.go: NewRawReader", "perf/reader.go: NewReaderWithOptions, Resume"]}
{"id": "C94", "title": "Feature probes tell the truth", "statement": "On every Linux kernel, whatever it was built with: if features.HaveMapType, HaveMapFlag, HaveProgramType, HaveProgramHelper, HaveBPFLinkUprobeMulti, HaveBPFLinkKprobeMulti or HaveBPFLinkKprobeSession returns nil then the running kernel has the feature, if it returns ErrNotSupported then it doesn't; if nothing fails for want of memory or permission (or, for helpers, because the arguments are bad) they return one of the two. No descriptor is left open.", "quantifier": "every kernel (sets of map types, flags, program types, helpers, links, sizes of the system call's attributes), every map type, flag, program type and helper, every failure at every system call", "why_tests_cant": "a test sees one kernel; the answers of the others, and all their failures, can't be had", "anchors": ["features/map.go: HaveMapType, HaveMapFlag, probeMap, probeNestedMap, probeStorageMap, probeCgroupStorageMap, createMap, probeMapFlag", "features/prog.go: HaveProgramType, HaveProgramHelper, probeProgram, haveProgramHelper, logContainsAll", "features/link.go: haveBPFLinkUprobeMulti, haveBPFLinkKprobeMulti, haveBPFLinkKprobeSession"]}
{"id": "C95", "title": "CO-RE relocation of a whole program answers every relocation, against all targets, independent of map order", "statement": "When a program with CO-RE relocations is loaded, it is relocated against the kernel and all its modules (or the KernelTypes override) and the extra targets, all of which must have the program's byte order. If that succeeds, instructions without a relocation are unchanged, and each relocation gets its own answer: a local type ID is the ID the type has in the BTF loaded with the program; the relocations about any other local type are answered together, by the candidate, among all types of the same essential name in all targets, which satisfies most of them, provided equally good candidates agree; type IDs of targets refer to the kernel. Each fix-up changes only the operand of its own instruction, or makes the instruction illegal. Neither success nor the result depends on the order in which Go iterates over the groups of relocations, and relocation only fails for one of the documented reasons. A program without relocations needs no kernel types.", "quantifier": "all type graphs, lists of relocations, targets, instruction streams, builders and iteration orders", "why_tests_cant": "The grouping of relocations goes through a Go map keyed by type and writes answers back by index; whether each answer reaches its instruction for every mix of types and every iteration order can't be sampled.", "anchors": ["btf/core.go:CORERelocate", "linker.go:applyRelocations", "btf/kernel.go:Cache"]}
{"id": "C96", "title": "Opening and closing readers is exact: right rings, nothing leaked", "statement": "A successfully opened perf.Reader has one ring for each CPU which is online and no other; each ring is a BPF output event of its CPU with the wakeup options given, non-blocking and polled, whose mapping is one page plus the least power of two of pages that holds the buffer asked for, writable unless overwritable; each event is in the array, at the index of its CPU if all CPUs are online. A ring buffer reader is opened only for ring buffers with a size that is a power of two; it maps the consumer page writable and the producer page and twice the data read-only, and polls the map. With valid arguments opening succeeds whatever CPUs are offline. If opening fails at any step everything opened so far is closed, and Close after success closes exactly what opening opened.", "quantifier": "all numbers of CPUs, sets of offline CPUs, buffer sizes, options, page sizes, and failures at each of the system calls made", "why_tests_cant": "Failures of each system call on each CPU can't be provoked, and machines with offline CPUs or other page sizes aren't at hand.", "anchors": ["perf/reader.go:NewReaderWithOptions", "perf/reader.go:Close", "perf/reader.go:Resume", "perf/ring.go:newPerfEventRing", "perf/ring.go:perfBufferSize", "perf/ring.go:createPerfEvent", "ringbuf/raw_reader.go:NewRawReader", "ringbuf/ring_other.go:newRingBufEventRing", "internal/epoll/poller.go:New", "internal/math.go:IsPow"]}
{"id": "C97", "title": "The kernel's version and its number of CPUs are read as they are", "statement": "The kernel version used by features and programs is the one the running kernel states in the note named Linux of its vDSO, wherever this note is among the note sections and notes, in either byte order; a vDSO without it gives an error. The vDSO is found by the first AT_SYSINFO_EHDR of the auxiliary vector. The number of possible CPUs is n exactly if the kernel lists the CPUs 0 to n-1, and a list with gaps is an error. Version strings a.b and a.b.c, whatever follows, are read as these numbers, numbers which don't fit are refused; the version of a feature is the first one given for the platform.", "quantifier": "all auxiliary vectors, all lists of notes and sections (any names, sizes and contents), all sets of CPUs, all version numbers and texts following them", "why_tests_cant": "A test machine has one vDSO, one set of CPUs and one version.", "anchors": ["internal/linux/vdso.go:vdsoMemoryAddress", "internal/linux/vdso.go:vdsoLinuxVersionCode", "internal/linux/auxv.go:ReadAuxvPair", "internal/linux/version.go:detectKernelVersion", "internal/linux/cpu.go:parseCPUs", "internal/version.go:NewVersion", "internal/version.go:NewVersionFromCode", "internal/platform/platform.go:selectVersion"]}
{"id": "C98", "title": "RemoveMemlock lifts the limit exactly where it is needed, and importing rlimit has no lasting effect", "statement": "Importing the rlimit package leaves RLIMIT_MEMLOCK and the open descriptors of the process as they were, also without privileges and if another process changes the soft limit meanwhile. If RemoveMemlock returns nil then locked memory doesn't limit the creation of maps: the kernel accounts their memory to the cgroup, or the limit is infinite. On kernels with cgroup accounting it does nothing; on others it raises the limit if that is permitted and otherwise fails without effect.", "quantifier": "all limits, privileges, kernels with and without accounting and tokens, all interference with the limits during initialisation", "why_tests_cant": "A test runs on one kernel with one set of privileges, and interference by other processes can't be timed.", "anchors": ["rlimit/rlimit_linux.go:detectMemcgAccounting", "rlimit/rlimit_linux.go:RemoveMemlock"]}
{"id": "C99", "title": "Info tells the truth about a link, whole", "statement": "Opening a link by ID, descriptor or pin and asking for its Info gives the link's type, ID, program and what the kernel tells about this kind of link: every name whole, every field from its own place, one address and cookie per kprobe and one offset, cookie and reference counter per uprobe of a multi link. If the link's name, program or counters change while it is being asked, the answer is what was true at one moment, or an error if the name grew; never a mixture of two names nor a truncated one, and the kernel never writes beyond the buffers passed. On kernels that don't know the info of a kind of link it is marked as absent.", "quantifier": "all links of all kinds with all names, addresses, offsets and cookies, all changes between the queries, all kernels (sets of features)", "why_tests_cant": "A test can't rename a file or update a link between two system calls of one method, and sees one kernel.", "anchors": ["link/perf_event.go:queryInfoWithString", "link/perf_event.go:Info", "link/kprobe_multi.go:Info", "link/uprobe_multi.go:Info", "link/link_other.go:wrapRawLink", "link/link_other.go:Addresses", "link/link_other.go:Offsets", "link/link_other.go:Pid", "link/raw_tracepoint.go:Info", "link/iter.go:Info", "link/tracing.go:Info", "link/cgroup.go:Info", "link/netns.go:Info", "link/tcx.go:Info", "link/xdp.go:Info", "link/netkit.go:Info", "link/netfilter.go:Info", "link/link.go:Info", "internal/sys/types.go:UprobeMultiLinkInfo"]}
{"id": "C100", "title": "Pointers to variables are pointers to the variables, for as long as they are held", "statement": "VariablePointer accepts exactly the types that are laid out as C does, hold no Go pointers, and have the variable's size and alignment; reading and writing through the result reads and writes the variable's bytes in the map, whatever the size of pages and words. Mapping a map succeeds whenever the kernel permits it at least read-only, and changes no memory but its own. As long as somebody holds a pointer the memory behind it is the map's; once nobody does, the memory is ordinary heap memory again, and no other memory of the process is ever touched, failures included. Reading and writing through Variable and Memory never touches memory which has been unmapped.", "quantifier": "all Go types, variables, offsets, sizes, hosts, kernels, and all histories of mapping, taking and dropping pointers and collecting garbage", "why_tests_cant": "When the collector runs and which addresses the heap hands out isn't under a test's control, and a mistake corrupts memory only rarely.", "anchors": ["memory_unsafe.go:newUnsafeMemory", "memory_unsafe.go:allocate", "memory_unsafe.go:mapmap", "memory_unsafe.go:unmap", "memory_unsafe.go:checkUnsafeMemory", "memory_unsafe.go:checkType", "memory_unsafe.go:memoryPointer", "variable.go:checkVariable", "variable.go:VariablePointer", "variable.go:Get", "variable.go:Set", "memory.go:ReadAt", "memory.go:WriteAt"]}
{"id": "C101", "title": "bpf2go gives each architecture the object compiled for it", "statement": "For the targets given to bpf2go (generic byte orders, Go architectures, native) an object is compiled for each and a Go file embedding that object is written; the Go file is part of exactly the builds whose architecture has the byte order of the object and, for specific targets, the kernel architecture it was compiled for, and whose tags satisfy -tags. With only generic or only specific targets at most one file is part of a build, with the default targets every supported architecture has one. Nothing else in the output directory changes except that files of the old naming scheme are removed, whatever the order in which targets are converted. Compiler flags take precedence in the order -cc, -cflags, command line; defaults apply only if nothing was given, and the target can't be overridden.", "quantifier": "all lists of targets, hosts, stems, tags, builds (systems, architectures, tags), orders of conversion and contents of the directory, all flags", "why_tests_cant": "The object that ends up in a build for another architecture, with another set of tags, is seen only there, and Go maps are iterated in random order.", "anchors": ["cmd/bpf2go/gen/target.go:FindTarget", "cmd/bpf2go/gen/target.go:Suffix", "cmd/bpf2go/gen/target.go:Constraint", "cmd/bpf2go/gen/compile.go:insertDefaultFlags", "cmd/bpf2go/gen/compile.go:Compile", "cmd/bpf2go/main.go:newB2G", "cmd/bpf2go/main.go:convertAll", "cmd/bpf2go/main.go:convert", "cmd/bpf2go/main.go:removeOldOutputFiles", "cmd/bpf2go/flags.go:andConstraints"]}
{"id": "C102", "title": "bpf2go's bindings cover the whole object and compile", "statement": "For every ELF the generated Go has, for each program, each map that isn't a data section and each variable, exactly one field in the spec and object structs, tagged with its C name and named by an exported identifier, and a constant holding its C name; every type named by a key, a value or a variable is declared exactly once, behind arrays and qualifiers too; closing the objects closes every program and map; no two declarations have the same name; and the output is the same whatever order Go visits maps in. Names from which no identifier can be made, and two types of one Go name, are refused.", "quantifier": "all sets of maps, programs, variables and types with any names, any stem, any order of iteration of Go's maps", "why_tests_cant": "Tests generate code for a few fixed objects; clashes of names, and dependence on the random order of maps, need the general statement.", "anchors": ["internal/output.go:Identifier", "cmd/bpf2go/gen/types.go:CollectGlobalTypes", "cmd/bpf2go/gen/types.go:collectMapTypes", "cmd/bpf2go/gen/types.go:collectVariableTypes", "cmd/bpf2go/gen/types.go:addType", "cmd/bpf2go/gen/types.go:selectType", "cmd/bpf2go/gen/output.go:Generate", "cmd/bpf2go/gen/output.go:sortTypes", "cmd/bpf2go/gen/output.tpl", "cmd/bpf2go/main.go:convert"]}
{"id": "C103", "title": "bpf2go's dependency file says what the compiler's says", "statement": "With -makebase set, for every dependency file the compiler writes (any layout of blanks, tabs, continuation and empty lines, with or without a final newline, with either kind of line end), bpf2go writes a dependency file for make with the same rules in the same order: each path, read in make's base directory, names the file which the compiler's path names in the compiler's working directory, except that the target of the first rule is the generated Go file. A file without rules is an error, never a panic.", "quantifier": "all dependency files, working directories, base directories and names of Go files", "why_tests_cant": "Tests cover one file; a lost or wrong dependency is noticed only as a build that is stale.", "anchors": ["cmd/bpf2go/makedep.go:parseDependencies", "cmd/bpf2go/makedep.go:adjustDependencies", "cmd/bpf2go/main.go:convert"]}
{"id": "C104", "title": "bpf2go splits its flags into the words that were quoted", "statement": "-cc, -strip, -cflags and their environment variables are split into words: words are separated by blanks, a backslash takes away the meaning of the next character, quotes of either kind keep blanks, white space around the string is dropped; a string with an unfinished quote or escape is refused, every other is split in exactly one way, and every list of words can be written. On the command line what follows the first -- goes to the compiler. Repeated -type flags give a sorted list of distinct names and are refused if a name is repeated or isn't one.", "quantifier": "all strings, all lists of words, all lists of arguments and of types", "why_tests_cant": "Quoting has to be right for every combination of quotes, escapes and blanks; tests try a few.", "anchors": ["cmd/bpf2go/tools.go:splitArguments", "cmd/bpf2go/tools.go:splitCFlagsFromArgs", "cmd/bpf2go/main.go:Set"]}
{"id": "C105", "title": "Walking a directory of pins hands out each object once and keeps no descriptor", "statement": "For every tree below a directory of a BPF file system, and every program ranging over the walk (which may take objects, close them, break out of the loop or panic), the walk hands out the maps, programs and links below the directory with their paths and types, in lexical order, each path once; an object is missing only if the loop was left or an error was reported at something not after it. Each descriptor opened is closed exactly once, unless the program took the object, which the walk then never closes; at most one that isn't taken is open at a time. Once the loop is left nothing more is handed out and no error is reported; an error is reported at most once, last, and only for an entry that can't be loaded or read. A root that isn't on a BPF file system is refused, on machines of either word size.", "quantifier": "all file trees, results of system calls and programs ranging over the walk, reacting to everything that happened before", "why_tests_cant": "A test walks a few trees with a few loop bodies; descriptors left open or closed twice show up only under failures and panics.", "anchors": ["pin/walk_other.go:WalkDir", "pin/load.go:Load", "pin/pin.go:Take", "pin/pin.go:close", "internal/sys/syscall_other.go:ObjGetTyped", "internal/sys/syscall_other.go:readType", "internal/linux/statfs.go:FSType", "map.go:NewMapFromFD", "map.go:newMapFromParts", "prog.go:NewProgramFromFD", "link/link.go:NewFromFD", "link/link_other.go:wrapRawLink"]}
{"id": "C106", "title": "Sections of an ELF, its license and version, and maps defined by structs", "statement": "For every ELF: sections named .bss, .data\u2026 and .rodata\u2026 are data, non-empty code under any other name without a meaning is programs; license and version are those of the last sections whose names begin so, without trailing zero bytes and in the ELF's byte order, empty and 0 without one; objects whose license or version can't be read, or with struct_ops of the old kind, are refused. From sections whose names begin with maps, the maps loaded are exactly those of named symbols that are objects or untyped (of several at one place the last), each under its symbol's name with the five fields and the trailing bytes its own bytes spell, a name without characters the kernel refuses, and the tags of its BTF variable. They are refused exactly if such a section has no symbol, is compressed, or has something other than variables in BTF, a symbol reaches beyond its section, 4 GiB or the end of the file or is too short for the five fields, or two have the same name. Nothing depends on the order Go visits maps in.", "quantifier": "all lists of sections, symbols and BTF variables, both byte orders, all orders of visiting sections and symbols", "why_tests_cant": "Offsets, sizes and names come from untrusted files; wrapping bounds, symbols sharing a place and random map order aren't covered by a few fixed objects.", "anchors": ["elf_reader.go:LoadCollectionSpecFromReader", "elf_reader.go:loadLicense", "elf_reader.go:loadVersion", "elf_reader.go:isDataSection", "elf_reader.go:assignSymbols", "elf_reader.go:loadMaps", "elf_reader.go:sectionVars", "syscalls.go:sanitizeName"]}
{"id": "C107", "title": "The kernel's and modules' BTF come from where they should", "statement": "LoadKernelSpec loads the kernel's own BTF if that can be opened, whether or not it can be mapped, and otherwise the BTF of the first vmlinux that exists in libbpf's places for the running release; the error is ErrNotSupported if BTF isn't enabled. From an ELF it is the last .BTF section, refused unless it has the ELF's byte order, together with the sizes of sections and the offsets of symbols within 32 bits; an ELF without BTF gives ErrNotFound; anything else is read as raw BTF. A module's BTF is read from the file of its name, on top of the kernel's; no name makes anything outside /sys/kernel/btf be opened. Files are closed, and a mapping is undone unless a spec uses it. Cache.Modules returns the sorted names without vmlinux and doesn't remember errors.", "quantifier": "all file systems, results of system calls, ELFs, module names and histories of calls", "why_tests_cant": "Tests run on one machine; fallbacks, failures and hostile names or ELFs don't occur there.", "anchors": ["btf/kernel.go:LoadKernelSpec", "btf/kernel.go:findVMLinux", "btf/kernel.go:LoadKernelModuleSpec", "btf/kernel.go:loadKernelModuleSpec", "btf/kernel.go:Modules", "btf/btf.go:LoadSpecFromReader", "btf/btf.go:loadSpecFromELF", "btf/btf.go:symbolOffsets", "btf/btf.go:LoadSplitSpecFromReader"]}
{"id": "C108", "title": "struct_ops variables, .kconfig and .ksyms of an object", "statement": "Loading an object turns every variable of its .struct_ops.link section into one map named like it, of type struct_ops, with the link flag and holding the bytes of the variable; no map defined otherwise is changed; every program a function pointer of a variable names is marked for `struct:member`, the last such member if there are several; and programs not named are left alone. It fails exactly if there is no BTF or no description of the section, a variable isn't a struct (behind at most 32 typedefs and qualifiers), lies outside of the section or has the name of another map, or a pointer is not to a struct_ops program, independent of the order in which sections are visited. .kconfig becomes one read-only map of the declared size, and .ksyms declares its functions and variables and nothing else. Creating a struct_ops map uses the kernel's type bpf_struct_ops_<name>, its size, its ID and the module that has it; it is tried a second time without BTF only if the kernel refused BTF; no descriptor but the map's is left open; and a kernel without the type is reported as not supporting it.", "quantifier": "every object, all kernels and modules, every order of sections and every answer of the kernel", "why_tests_cant": "unbounded objects and type graphs; Go's map order is random", "anchors": [["elf_reader.go: loadKconfigSection, loadKsymsSection, associateStructOpsRelocs, createStructOpsMap", "struct_ops.go: structOpsSetAttachTo, structOpsFindInnerType, structOpsFindTarget", "map.go: MapSpec.createMap"]]}
{"id": "C109", "title": "Programs own their descriptors, from loading to closing", "statement": "NewProgram opens exactly the descriptors the program will own: its own, and one of the BTF it was loaded with if it has any; whatever else loading needs (the map of kconfig variables, BTF of modules, the target's BTF) is open and refers to the right object whenever the kernel is asked to load, in every retry, and is closed afterwards; if any step fails nothing stays open, and it succeeds iff all steps do. Program.Handle gives the caller a new descriptor of the program's own BTF; SetHandle accepts BTF of the same ID only and leaves the caller's handle alone; Clone has descriptors of its own; NewProgramFromID has one; each of them changes nothing if it fails. After every history of these, Close and Handle.Close, every descriptor of the process belongs to exactly one program or handle and refers to what it should, none was closed that wasn't open, and once everything is closed only those are left that don't belong to the library.", "quantifier": "all histories of loading, cloning, handles and closing, all failures of every step and system call, every allocation of descriptor numbers", "why_tests_cant": "a leak or a double close shows up only in failures no test can provoke one by one, and in combinations of calls", "anchors": [["prog.go: newProgram, NewProgramFromID, newProgramFromFD, Handle, SetHandle, Clone, Close, findTargetInProgram", "btf/handle.go: NewHandleFromID, Close, Clone"]]}
{"id": "C110", "title": "The .kconfig map holds the configuration of the running kernel", "statement": "When a collection with .kconfig variables is loaded, the value put into the map has the size of the section; LINUX_KERNEL_VERSION holds the version code of the kernel, LINUX_HAS_SYSCALL_WRAPPER whether there are wrappers, and each CONFIG_ variable the value which its first assignment in the kernel's configuration denotes (y and n in a bool, y, n and m in a tristate, a string without quotes in an array of characters, a number that fits in an integer); everything else is zero. There is at most one such value, it doesn't depend on Go's order of going through maps, it is found whenever it exists and the configuration can be read, an option the configuration doesn't assign makes loading fail, and nothing panics. The configuration is /boot/config-<release>, else /proc/config.gz, and neither is opened if no option is declared.", "quantifier": "all sections whose variables lie within and apart, all configurations, versions, byte orders and map orders", "why_tests_cant": "unbounded configurations and layouts; map order is random and tests see the one kernel they run on", "anchors": [["collection.go: resolveKconfig", "internal/linux/kconfig.go: FindKConfig", "internal/kconfig/kconfig.go: Parse, PutValue, PutInteger"]]}
{"id": "C111", "title": "Maps by symbol, symbols, references and tags of instructions", "statement": "Instructions.AssociateMap succeeds iff the symbol isn't empty, some instruction refers to it and every instruction that does is a load of a map's descriptor or of its value's address; then exactly those instructions hold the map and no reference any more, and nothing else has changed. ErrUnreferencedSymbol means no instruction refers to the symbol (and nothing changed). Associating is possible once per symbol, in any order of symbols. SymbolOffsets fails iff two instructions have the same symbol, and otherwise maps exactly the symbols to the indices of their instructions; ReferenceOffsets maps exactly the symbols that are referred to to the ascending indices of all instructions that refer to them; Name is the first instruction's symbol. Tag is the first eight bytes, in lower-case hexadecimal digits, of the SHA-1 of the encoded instructions with the constants of map loads taken as 0, HasTag accepts exactly that of SHA-256 and that of SHA-1, both fail only if an instruction can't be encoded, and neither depends on which maps are associated.", "quantifier": "every list of instructions, symbol, map, sequence of symbols, hash function, tag and byte order", "why_tests_cant": "the statements range over every program; tests associate one map with two instructions and hash one program", "anchors": [["asm/instruction.go: Instruction.AssociateMap, Instructions.AssociateMap, Instructions.SymbolOffsets, Instructions.ReferenceOffsets, Instructions.Name, Instructions.Tag, Instructions.HasTag, tagSha1, tagSha256, hash"]]}
{"id": "C112", "title": "What the kernel is told about a new map, and how its refusal is reported", "statement": "On Linux, creating a map passes exactly the spec's type, sizes, entries, flags, NUMA node and extra value (after the magic fields have been set), the inner map's descriptor, and a name of 16 bytes: the first 15 of the name's letters, digits, underscores and dots (no dots if the kernel refuses them, no name if it doesn't know names), then zeroes. Key and value BTF is passed if the spec has it and the kernel knows it; for struct_ops the BTF descriptor, the kernel's type and its size, and the module's descriptor with its flag. There is a second attempt, which differs only in having no key and value BTF, iff the first had BTF and was refused with ENOTSUPP or EINVAL. Specs that aren't acceptable are refused before the kernel is asked. The error of the system call can always be unwrapped, unless the spec has no type or uses a feature whose probe fails; EPERM and missing privileges of a token are never hidden; each hint is given exactly if it applies, and a feature is reported iff it is the first the spec uses whose probe fails.", "quantifier": "every spec, name, environment (outcomes of probes, BTF, struct_ops lookup, page size) and kernel", "why_tests_cant": "the combinations of types, flags, probes and answers of the kernel can't be produced on the machine that runs the tests", "anchors": [["map.go: MapSpec.createMap, handleMapCreateError", "syscalls.go: sanitizeName, maybeFillObjName", "internal/sys/syscall.go: NewObjName", "types.go: mustHaveNoPrealloc, mustHaveZeroMaxEntries, canStoreMap", "internal/math.go: IsPow"]]}
{"id": "C113", "title": "The text of a verifier error", "statement": "%s, %v and Error() give the source, the cause, the last line of the log that isn't the kernel's statistics, preceded by the line before it exactly if that line is needed to understand it (indented lines, register complaints, context access), trimmed, and the number of lines that aren't shown, if there are any. %+Nv gives the head, then the first min(N, length) lines of the log unchanged, one per line and indented, then the number of lines left out, if any; %-Nv gives that number first, and then the last min(N, length) lines; without width both give all lines. A width without flag, both flags and other verbs are reported as misuse. From the text of %+v every line of the log can be recovered.", "quantifier": "every source, cause, log, verb, flags and width", "why_tests_cant": "tests format a handful of captured logs; that no line is lost and the counts are right must hold for all", "anchors": [["internal/errors.go: VerifierError.Error, includePreviousLine, VerifierError.Format"]]}
{"id": "C114", "title": "Tables shared by goroutines give everyone the same, true answer", "statement": "ReadUint64FromFile returns the number the file shows in the format (text, blanks, decimal digits, blanks, newline or end), or an error if the file can't be read, shows no number, or the number needs more than 64 bits. ReadUint64FromFileOnce, called by any number of goroutines while files change: all successful calls for one file and format return the same number, one that the file did show before; once a call has succeeded, later ones don't read the file; an error is that of a read by the same call, and isn't remembered. FeatureCache.Result: newTest is called at most once per key, for a key that was asked for, never twice at the same time; all calls for one key use one test, calls for different keys different ones. No goroutine looks at a table while another changes it, and as long as a call is running some call can go on.", "quantifier": "all files, numbers of goroutines, keys, interleavings and changes of files", "why_tests_cant": "schedules can't be enumerated by tests, and the files are those of the running kernel", "anchors": [["internal/io.go: ReadUint64FromFile, ReadUint64FromFileOnce", "internal/feature.go: FeatureCache.retrieve"]]}
{"id": "C115", "title": "Maps own their descriptors", "statement": "Take any sequence of NewMapFromID, NewMapFromFD, LoadPinnedMap, Clone, Close, Handle, Memory, closing of handles, dropping objects and garbage collection, with any failures of system calls. Every descriptor which isn't someone else's has exactly one owner: a map, a handle, the user, or an object that was dropped and whose cleanup hasn't run yet; none is ever closed twice; a map's descriptor refers to that map as long as the map is open; and once everything was closed or dropped and collected, nothing is left open. A map says what the kernel says of it; its value size is rounded up to eight bytes and multiplied with the number of CPUs exactly if it has a value for each. A clone has a descriptor of its own and isn't pinned; a map from a pin knows its path. Memory gives the same mapping every time, read-only only if a writable one isn't permitted.", "quantifier": "every sequence of operations, outcome of system calls, choice of descriptor numbers and kernel", "why_tests_cant": "which descriptors are open after which failures can't be tested without making system calls fail at every point", "anchors": [["map.go: newMapFromFD, newMapFromParts, NewMapFromFD, NewMapFromID, LoadPinnedMap, Map.Clone, Map.Close, Map.Handle, Map.Memory", "memory.go: newMemory", "internal/sys/fd.go, fd_other.go: NewFD, Close, Dup, cleanup"]]}
{"id": "C116", "title": "Tracefs is found where it is, and nothing outside it is opened", "statement": "On Linux tracefs is found where it is mounted first; if it isn't mounted, in the first debugfs that has a directory tracing; else in one of the two usual places if that is in the right kind of file system; mounts of a part don't count. Reading the ID of an event opens no file unless group and name are identifiers, and then exactly events/GROUP/NAME/id of that tracefs, different for different events, and gives the number shown there; commands are written to its kprobe_events or uprobe_events. Paths are resolved as the kernel does (without symbolic links); whatever leads below tracefs is accepted, and whatever leads elsewhere refused, unless it leads to a neighbour of tracefs whose name begins with that of tracefs.", "quantifier": "every mount table, answer of stat and statfs, group, name and path", "why_tests_cant": "tests run on one machine with tracefs in its usual place; that no name leads elsewhere must hold for all names", "anchors": [["internal/tracefs/kprobe.go: getTracefsPath, findTracefsInEntries, sanitizeTracefsPath, EventID, eventsFile"]]}
{"id": "C117", "title": "A copy of a specification is one's own", "statement": "CollectionSpec.Copy, MapSpec.Copy, ProgramSpec.Copy and VariableSpec.Copy give specifications with the same contents, made of objects that didn't exist before, so that a write to the copy's maps, programs, variables, slices or instructions, at any depth of inner maps, doesn't show in the original, nor a write to the original in the copy; only the values in Contents, attach targets and BTF-independent metadata stay shared, as documented. A map in the copy that names itself as inner map names the copy.", "quantifier": "every specification, with sharing inside it, nil fields and nested inner maps, and every sequence of later writes", "why_tests_cant": "tests copy one specification and compare some of its pointers; a field that is left shared shows only when somebody writes to it", "anchors": [["collection.go: CollectionSpec.Copy, copyMapOfSpecs", "map.go: MapSpec.Copy", "prog.go: ProgramSpec.Copy", "variable.go: VariableSpec.Copy"]]}
{"id": "C118", "title": "Printing a type ends, and shows what the width asks for", "statement": "With %v and width w a BTF type is printed as its label with, in brackets, the labels and details of the types it refers to, down to w+1 levels: all types of these levels are shown and nothing of further ones, so that nothing is left out if there are none. Types that refer to themselves are printed like others, with text of bounded length. Of the fields of a struct as many are named as the width says, or five, then dots. %s shows the label only, and other verbs are refused.", "quantifier": "every graph of types, cyclic or not, every width, flag and verb", "why_tests_cant": "tests print a few types of small depth; that printing ends, and what is cut, concerns all graphs", "anchors": [["btf/types.go: formatType, formatState, memberNames, the methods Format"]]}
{"id": "C119", "title": "A variable's initial value is what it is set to", "statement": "VariableSpec.Set succeeds exactly for values that marshal to as many bytes as the variable has, by its value or else its type (any known size if it has neither); then the variable has these bytes, and Get gives the value that was set. Setting changes neither the place nor the size of the variable, and not whether the section can be loaded. An attempt that fails changes nothing.", "quantifier": "every variable, value, codec and section", "why_tests_cant": "tests set a few integers and structs of the right and wrong size", "anchors": [["variable.go: VariableSpec.Set, VariableSpec.Get, VariableSpec.Size", "map.go: MapSpec.updateDataSection", "internal/sysenc/buffer.go: CopyTo"]]}
