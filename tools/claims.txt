C01 | proved | Ebpf.Asm.setMode_spec, Ebpf.Asm.setSize_spec, Ebpf.Asm.setALUOp_spec, Ebpf.Asm.setSource_spec, Ebpf.Asm.setAtomicOp_spec, Ebpf.Asm.setJumpOp_spec | All 2^32 opcodes, all field values.
C02 | partial | Ebpf.Asm.decode_encode_partial, Ebpf.Asm.decode_encode_counterexample, Ebpf.Asm.decode_encode_counterexample_call | False as stated: ALU offsets unknown to the decoder (addr_space_cast) are dropped on re-encoding, negative helper numbers decode but do not encode. Identity proved for all other byte sequences.
C03 | proved | Ebpf.Asm.encode_decode | For the WellFormed instructions of Spec/Instruction.lean.
C04 | proved | Ebpf.Asm.stream_roundtrip, Ebpf.Asm.append_consumes_all | Induction over programs of any length.
C05 | partial | Ebpf.Asm.atomic_survives_partial, Ebpf.Asm.atomic_survives_counterexample | The code is wrong: Marshal computes the wire constant before it stores the atomic operation. Proved only when the constant already repeats the operation bits.
C06 | partial | Ebpf.Asm.references_land_partial, Ebpf.Asm.duplicate_symbol_rejected, Ebpf.Asm.unknown_symbol_rejected, Ebpf.Asm.references_land_counterexample | int16 truncation of far jumps is not detected; everything else holds.
C07 | proved | Ebpf.Asm.mapref_independent, Ebpf.Asm.rewriteMapOffset_spec, Ebpf.Asm.mapref_wire, Ebpf.Asm.map_pointers_exact, Ebpf.Asm.closed_map_rejected | All write sequences.
C08 | proved | Ebpf.Asm.tag_ignores_map_fds, Ebpf.Asm.tag_input_exact, Ebpf.Asm.tag_input_injective | The hash function is arbitrary; statements are about the hashed bytes.
C09 | proved | Ebpf.Metadata.metadata_refines_maps | Explicit heap with sharing; all histories.
C10 | proved | Ebpf.Asm.encodeConstant_isSome, Ebpf.Asm.decode_encodeConstant, Ebpf.Asm.encodeConstant_injective | 
C40 | proved | Ebpf.Deque.deque_refines_list, Ebpf.Deque.grow_negative_panics | All operation sequences on the ring-buffer deque refine a list.
C41 | proved | Ebpf.Internal.align_least_multiple, Ebpf.Internal.alignS_eq, Ebpf.Internal.align_overflow_wraps, Ebpf.Internal.isPow_iff, Ebpf.Internal.between_spec | All widths.
C42 | proved | Ebpf.Feature.probe_exclusive, Ebpf.Feature.conclusive_once, Ebpf.Feature.returns_cached, Ebpf.Feature.bad_version_not_cached | Any number of goroutines, all interleavings.
C43 | proved | Ebpf.Sys.Fds.close_only_owned, Ebpf.Sys.Fds.fd_positive, Ebpf.Sys.Fds.owned_has_cleanup, Ebpf.Sys.Fds.close_closed | All histories including garbage collection; descriptor ownership is a ghost.
C44 | proved | Ebpf.Kallsyms.lookup_history_exact, Ebpf.Kallsyms.assign_exact, Ebpf.Kallsyms.parse_kernel_line | 
C45 | proved | Ebpf.Kconfig.parse_first_assignment, Ebpf.Kconfig.parse_fails_only | 
C46 | partial | Ebpf.Kconfig.putInteger_signed, Ebpf.Kconfig.putInteger_unsigned_partial, Ebpf.Kconfig.putInteger_unsigned_counterexample, Ebpf.Kconfig.putInteger_accepts, Ebpf.Kconfig.putValueNumber_exact, Ebpf.Kconfig.putValueString_spec, Ebpf.Kconfig.putValue_text, Ebpf.Kconfig.putValue_tri | The code is wrong for some unsigned values (counterexample theorem).
C47 | proved | Ebpf.Internal.less_iff, Ebpf.Internal.less_strict_total, Ebpf.Internal.kernel_eq, Ebpf.Internal.fromCode_kernel, Ebpf.Internal.kernel_fromCode, Ebpf.Internal.kernel_monotone, Ebpf.Internal.kernel_major_wraps | 
C48 | partial | Ebpf.Mountinfo.unescape_escape, Ebpf.Mountinfo.parseLine_kernel_partial, Ebpf.Mountinfo.parseEntries_kernel_partial, Ebpf.Mountinfo.mountinfo_counterexample, Ebpf.Mountinfo.filterByFSType_spec, Ebpf.Mountinfo.isSpace_iff | The code is wrong on some mount lines (counterexample theorem).
C12 | proved | Ebpf.PerCPU.percpu_marshal_exact, Ebpf.PerCPU.percpu_unmarshal_exact, Ebpf.PerCPU.percpu_roundtrip, Ebpf.PerCPU.align8_spec, Ebpf.PerCPU.align8_eq_alignS | Any element codec.
C13 | proved | Ebpf.PerCPU.batch_marshal_exact, Ebpf.PerCPU.batch_unmarshal_exact, Ebpf.PerCPU.batch_roundtrip | 
C53 | partial | Ebpf.Sysenc.marshal_zero_copy_eq_partial, Ebpf.Sysenc.syscallOutput_eq_binary_partial, Ebpf.Sysenc.marshal_unmarshal, Ebpf.Sysenc.marshal_size, Ebpf.Sysenc.blank_field_counterexample | Holds for all types without fields named _; false with such fields (counterexample).
C54 | partial | Ebpf.PerCPU.batchLookup_exact_partial, Ebpf.PerCPU.batchLookup_counterexample | False for wrong lengths whose byte size happens to match (counterexample).
C14 | partial | Ebpf.MapIter.iteration_bounded_partial, Ebpf.MapIter.iteration_complete, Ebpf.MapIter.iteration_unbounded_counterexample, Ebpf.MapIter.next_false_ends, Ebpf.MapIter.next_false_reason | Adversarial kernel; the counter wraps for MaxEntries = 2^32-1, where the bound fails (counterexample).
C15 | partial | Ebpf.Memory.updateDataSection_exact_partial, Ebpf.Memory.updateDataSection_accepts_partial, Ebpf.Memory.updateDataSection_panics_counterexample, Ebpf.Memory.updateDataSection_order_counterexample | Full for variables whose end fits 32 bits; otherwise the code panics; empty variables make the outcome depend on map iteration order.
C16 | proved | Ebpf.Memory.history_exact, Ebpf.Memory.writeAt_exact, Ebpf.Memory.writeAt_rejected, Ebpf.Memory.readAt_exact, Ebpf.Memory.read_after_write, Ebpf.Memory.closed_stays | 
C17 | proved | Ebpf.Memory.variables_independent, Ebpf.Memory.set_exact, Ebpf.Memory.set_failed_unchanged, Ebpf.Memory.get_exact, Ebpf.Memory.get_after_set, Ebpf.Memory.bounds_sound, Ebpf.Memory.bounds_complete | Variables of non-zero size.
C18 | proved | Ebpf.Ringbuf.delivered_in_order, Ebpf.Ringbuf.never_fails, Ebpf.Ringbuf.never_skips_busy, Ebpf.Ringbuf.end_of_ring_complete, Ebpf.Ringbuf.read_progress, Ebpf.Ringbuf.outstanding_samples_intact | Interleaving of any number of producers with one reader, sequentially consistent memory.
C19 | proved | Ebpf.Ringbuf.consumer_position, Ebpf.Ringbuf.consumer_monotone, Ebpf.Ringbuf.outstanding_samples_intact | 
C20 | partial | Ebpf.RingReader.interrupted_reads_drain_first, Ebpf.RingReader.drained_means_empty, Ebpf.RingReader.interruptions_reported_once, Ebpf.Perf.perf_drains_first_partial, Ebpf.Perf.perf_overwritable_flush_skips, Ebpf.RingReader.only_interruptions_drain | Full for ringbuf and for perf readers that are not overwritable; false for overwritable perf readers (counterexample).
C21 | proved | Ebpf.RingReader.lease_implies_mapped, Ebpf.RingReader.one_lease, Ebpf.RingReader.unmapped_once, Ebpf.RingReader.late_lease_refused, Ebpf.RingReader.refused_concurrent, Ebpf.RingReader.second_close_noop, Ebpf.RingReader.failed_poller_close_leaks | 
C22 | proved | Ebpf.Perf.read_spec, Ebpf.Perf.full_ok, Ebpf.Perf.full_short, Ebpf.Perf.readRecord_ok, Ebpf.Perf.readAll_records, Ebpf.Perf.readAll_overwritable, Ebpf.Perf.readAll_forward_cut, Ebpf.Perf.loadHeadReverse_spec, Ebpf.Perf.remaining_spec, Ebpf.Perf.read_is_prefix, Ebpf.Perf.unread_is_stream, Ebpf.Perf.unknown_event_desynchronises | Unknown event types leave the reader desynchronised (finding).
C23 | partial | Ebpf.Perf.resume_addresses_cpus_partial, Ebpf.Perf.resume_addresses_prefix_partial, Ebpf.Perf.resume_offline_cpu_wrong, Ebpf.Perf.pause_undoes_resume | False when a CPU below an online one is offline (counterexample).
C24 | partial | Ebpf.Btf.builder_roundtrip_partial, Ebpf.Btf.lookup_exact, Ebpf.Btf.lookupCached_exact, Ebpf.Btf.encode_exact, Ebpf.Btf.builder_wraps_counterexample | Proved for string tables below 4 GiB; the builder does not detect 32-bit overflow (counterexample).
C55 | partial | Ebpf.RingReader.no_use_after_unmap_partial, Ebpf.RingReader.available_after_close | AvailableBytes takes no lease (counterexample).
C25 | proved | Ebpf.Btf.header_layout, Ebpf.Btf.setKind_spec, Ebpf.Btf.setVlen_spec, Ebpf.Btf.setKflag_spec, Ebpf.Btf.setFwdKind_spec, Ebpf.Btf.setLinkage_spec, Ebpf.Btf.int_layout, Ebpf.Btf.setInt_spec, Ebpf.Btf.header_roundtrip, Ebpf.Btf.read_write_same, Ebpf.Btf.read_write_other | Oversize values are silently cut to the field width, as the bit field primitives specify.
C29 | proved | Ebpf.Btf.sizeof_exact, Ebpf.Btf.sizeof_complete, Ebpf.Btf.hasSize_unique, Ebpf.Btf.sizeof_cyclic, Ebpf.Btf.underlyingType_exact, Ebpf.Btf.qualifiedType_exact, Ebpf.Btf.as_exact | 
C30 | proved | Ebpf.Btf.essentialName_exact | 
C38 | proved | Ebpf.Btf.postorder_correct, Ebpf.Btf.postorder_acyclic, Ebpf.Btf.children_refs, Ebpf.Btf.children_tags | 
C26 | partial | Ebpf.Btf.marshal_roundtrip_partial, Ebpf.Btf.vlen_wraps, Ebpf.Btf.wide_int_becomes_bitfield, Ebpf.Btf.dummy_written_twice, Ebpf.Btf.history_dependent_after_failure, Ebpf.Btf.legacy_bitfields | Whole-graph round trip (cycles, tags, options, byte orders, any TypeByID history) for every finite set of representable types below 4 GiB. 'Unrepresentable values are rejected' is false of the code: 65536 members and integers of 32 bytes or more are changed silently (counterexamples). Without deduplication and split BTF.
C27 | proved | Ebpf.Btf.add_ids, Ebpf.Btf.add_succeeds, Ebpf.Btf.marshal_ids | Without deduplication (C37 covers the deduper).
C28 | partial | Ebpf.Btf.find_exact, Ebpf.Btf.typesByName_exact, Ebpf.Btf.anyTypesByName_partial, Ebpf.Btf.anyTypeByName_partial, Ebpf.Btf.typeByName_partial, Ebpf.Btf.wrong_flavour_returned, Ebpf.Btf.anyTypeByName_panics, Ebpf.Btf.flavour_only_not_found | Exact for every blob, state, hash function and name without other flavours in the spec. The full claim is false of the code: AnyTypeByName can return another flavour and can panic, and names consisting of a flavour only are not found (counterexamples).
C56 | proved | Ebpf.Btf.typeByID_stable, Ebpf.Btf.typeByID_injective, Ebpf.Btf.inflate_sound, Ebpf.Btf.header_accepted | Any blob without base.
C31 | partial | Ebpf.Btf.kconfig_layout_partial, Ebpf.Btf.layout_exact, Ebpf.Btf.layout_total, Ebpf.Btf.elf_section_exact, Ebpf.Btf.fixup_once, Ebpf.Btf.huge_variable_overlaps, Ebpf.Btf.fixup_retry_succeeds, Ebpf.Btf.missing_section_returned, Ebpf.Btf.ksyms_exact, Ebpf.Btf.elf_section_iff, Ebpf.Btf.sized_section | Exact C layout for .kconfig sections below 4 GiB; other sections take offsets from the ELF symbols. Above 4 GiB offsets wrap (counterexample), and after a failed fix-up the unfixed section is returned without error (proved for every state).
C32 | partial | Ebpf.Core.apply_exact, Ebpf.Core.apply_value, Ebpf.Core.apply_poison, Ebpf.Core.poison_encodes, Ebpf.Core.poison_drops_metadata, Ebpf.Core.local_offset_truncated, Ebpf.Core.poison_breaks_calls | Exact effect of a fix-up on every instruction. The full claim is false of the code: only 16 bits of the recorded offset are compared for memory instructions, and poisoning drops symbol and function metadata (counterexamples).
C33 | partial | Ebpf.Core.best_candidate, Ebpf.Core.failure_reason, Ebpf.Core.ambiguity_reported, Ebpf.Core.order_irrelevant_partial, Ebpf.Core.agreeing_succeeds, Ebpf.Core.tie_before_best_fails, Ebpf.Core.poison_depends_on_order, Ebpf.Core.noMatch_spec, Ebpf.Btf.struct_order_matters | For any per-candidate evaluation. Independence of the candidate order is false of the code: a tie before a better candidate is an error, and the poisoned instructions of tied candidates depend on the order (counterexamples).
C36 | proved | Ebpf.Btf.compatible_exact, Ebpf.Btf.compatible_terminates, Ebpf.Btf.compatible_symm, Ebpf.Btf.compatible_trans, Ebpf.Btf.compatible_qualifiers, Ebpf.Btf.compatible_refl_partial, Ebpf.Btf.float_unsupported, Ebpf.Btf.typeBased_ok, Ebpf.Btf.typeBased_accessor | Exact against a coinductive specification on arbitrary, also cyclic, type graphs.
C57 | partial | Ebpf.Btf.typeMatches_ok, Ebpf.Btf.typesMatch_sound, Ebpf.Btf.typesMatch_exact_partial, Ebpf.Btf.typesMatch_terminates, Ebpf.Btf.anonymous_members_mismatch, Ebpf.Btf.forward_declaration_name_ignored, Ebpf.Btf.behind_pointer_compared, Ebpf.Btf.variants_share | Exact if no composite has two members of one name. With two anonymous members a struct does not match itself; names of forward declarations are ignored; members behind pointers are compared although documented otherwise (counterexamples).
C34 | partial | Ebpf.Btf.bitfield_read_partial, Ebpf.Btf.adjustBits_covers, Ebpf.Btf.readField_unsigned, Ebpf.Btf.readField_signed, Ebpf.Btf.signed_exact, Ebpf.Btf.straddling_bitfield_misread | Exact for both byte orders whenever the relocated load covers the bits of the target field. The full claim is false of the code: a packed bitfield straddling its type's boundary is misread (counterexample), the load isn't widened.
C35 | partial | Ebpf.Btf.findField_sound, Ebpf.Btf.findField_impossible, Ebpf.Btf.findMember_sound, Ebpf.Btf.findMember_impossible, Ebpf.Btf.findMember_other, Ebpf.Btf.membersCompatible_iff, Ebpf.Btf.field_ok, Ebpf.Btf.enumvalValue_ok, Ebpf.Btf.enumval_exists, Ebpf.Btf.wide_struct_fails, Ebpf.Btf.field_value_ok | Sound and complete up to the limit of 32 composites in the member search, where an existing member is a hard error (counterexample). Whole relocations (existence, offsets, enum values) included.
C39 | proved | Ebpf.Btf.extinfo_roundtrip, Ebpf.Btf.extinfo_accepts, Ebpf.Btf.extinfo_strings, Ebpf.Btf.lineCol_unpack | The whole way: encoding of func and line infos, string table, decoding, sorting, assignment to the instructions; exactly the lines with numbers below 2^22, columns below 2^10 and strings without NUL are accepted.
C58 | partial | Ebpf.Btf.attach_exact, Ebpf.Btf.attach_stalls, Ebpf.Btf.attach_duplicate_stalls | Exact if the offsets are distinct and each is the start of an instruction. Otherwise the claim is false of the code: one stray or duplicate record silently hides all later ones (proved).
C59 | partial | Ebpf.Btf.ext_exact_partial, Ebpf.Btf.ext_decodes, Ebpf.Btf.ext_decodes_no_relos, Ebpf.Btf.ext_old_header_rejected, Ebpf.Btf.sectionOf_last, Ebpf.Btf.parseAccessor_iff | Exact characterisation of what is accepted. Missing because false of the code: the 24 byte header without CO-RE fields is rejected or misread (proved: the size of a pointer to a pointer is used); a second section of the same name hides the first.
C51 | partial | Ebpf.MapSpec.compatible_iff, Ebpf.MapSpec.compatible_no_cpus, Ebpf.MapSpec.created_compatible, Ebpf.MapSpec.spec_unchanged_partial, Ebpf.MapSpec.cpumap_spec_changed | Exact characterisation of compatible maps; maps created from a spec are compatible with it. The spec is left alone except for CPU maps, where the code changes the caller's MaxEntries (proved).
C52 | partial | Ebpf.Pin.pin_never_overwrites, Ebpf.Pin.pin_existing_fails, Ebpf.Pin.failed_unchanged, Ebpf.Pin.pin_ok, Ebpf.Pin.pin_succeeds, Ebpf.Pin.unpin_ok, Ebpf.Pin.unpin_succeeds, Ebpf.Pin.pins_in_sync_partial, Ebpf.Pin.repin_same_path_lies, Ebpf.Pin.replaced_pin_is_moved | Holds for every history of Pin, Unpin and Clone with arbitrary failures as long as nobody else touches the pins. With external removal the claim is false of the code (proved): pinning again to the same path reports success without a pin, and a replaced pin of another object is moved or removed. Linux only.
C60 | partial | Ebpf.MapSpec.memorySize_covers_partial, Ebpf.MapSpec.memorySize_short | Arenas and arrays below 4 GiB. For larger arrays the claim is false of the code: the size is computed in 32 bits (proved for every such array).
C11 | proved | Ebpf.Linker.flatten_exact, Ebpf.Linker.flattenPrograms_exact, Ebpf.Linker.flatten_links, Ebpf.Linker.flatten_recursive, Ebpf.Linker.functionReferences_sorted | Also: linked programs of well-formed objects can be encoded; a recursive program contains its own body twice and is always rejected when encoded.
C61 | partial | Ebpf.LinkerFix.untyped_sound, Ebpf.LinkerFix.untyped_fails_iff, Ebpf.LinkerFix.typed_sound, Ebpf.LinkerFix.typed_error_closes_partial | Everything but one case of the leak claim: the handle that does not fit when more than 32767 module handles are needed is not closed. Kernel BTF lookup is an arbitrary oracle; /proc/kallsyms is assumed readable and parseable.
C62 | partial | Ebpf.LinkerFix.kfunc_sound, Ebpf.LinkerFix.kfunc_error_closes_partial, Ebpf.LinkerFix.kfunc_terminates_partial, Ebpf.LinkerFix.kfunc_keeps_symbols_partial, Ebpf.LinkerFix.kfunc_terminates_counterexample, Ebpf.LinkerFix.kfunc_keeps_symbols_counterexample, Ebpf.LinkerFix.kfunc_error_closes_counterexample, Ebpf.LinkerFix.kfunc_load_offset_counterexample | Ids, indices and outcomes are right for all programs and kernels. False of the code (proved): a function starting with a poisoned weak call loses its symbol; a program ending in a weak address load is linked for ever; one handle leaks at the limit; address loads of module kfuncs get an offset the kernel rejects.
C63 | proved | Ebpf.LinkerFix.kconfig_refs, Ebpf.LinkerFix.encode_offset | Values of the map are C46.
C64 | proved | Ebpf.LinkerFix.validate_exact, Ebpf.LinkerFix.fixupProbeRead_spec |
C49 | proved | Ebpf.Coll.loadAndAssign_owns, Ebpf.Coll.newCollection_owns, Ebpf.Coll.newCollection_closes_nothing | Objects are numbers, each fallible operation asks an arbitrary oracle; struct_ops maps and the inside of map and program creation are not part of this model.
C50 | partial | Ebpf.Coll.newCollection_populates, Ebpf.Coll.loadAndAssign_populates_partial, Ebpf.Coll.loadAndAssign_populates_assigned, Ebpf.Coll.loadAndAssign_misses | NewCollection: proved for all orders. LoadAndAssign: proved for all maps loaded before populating begins; false of the code for maps loaded while ranging over the loaded maps (loadAndAssign_misses).
C65 | proved | Ebpf.Coll.newCollection_succeeds, Ebpf.Coll.loadAndAssign_succeeds, Ebpf.Coll.loadAndAssign_progArrays | As C49; struct_ops and kallsyms lookups are not part of this model.
C37 | partial | Ebpf.Btf.dedup_preserves_partial, Ebpf.Btf.dedup_complete, Ebpf.Btf.typesEq_correct, Ebpf.Btf.dedup_merges_bitfields, Ebpf.Btf.dedup_merges_linkage, Ebpf.Btf.dedup_merges_tags, Ebpf.Btf.dedup_merges_enums, Ebpf.Btf.dedup_merges_recursive | For all acyclic type graphs, hash functions and histories: types are only merged if equal up to bit field sizes, enum size/signedness, function linkage, datasec size and tags, and equal types get one representative. The full property is false: types differing in these fields, and recursive types, are merged (witnesses with a collision-free hash).
C66 | partial | Ebpf.Elf.calls_resolve_partial, Ebpf.Elf.variables_resolve_partial, Ebpf.Elf.calls_resolve_counterexample, Ebpf.Elf.call_addend_dropped, Ebpf.Elf.funcptr_wrong_function, Ebpf.Elf.negative_call, Ebpf.Elf.alias_lost, Ebpf.Elf.data_addend_dropped, Ebpf.Elf.keep_object | Proved for all objects with unique function addresses: calls via section symbols, by name without addend, relative calls, function pointers via section symbols, variables via section symbols or by name without addend, maps. Not covered because the code gets them wrong (each with a witness): calls or variables by name with an addend, pointers to global functions (the symbol's value is ignored), relative calls before the section, functions with two names.
C67 | partial | Ebpf.Elf.linked_calls_land_partial | Composition of C66, C11 and C06; the same cases are missing as in C66.
C68 | partial | Ebpf.Btf.goType_layout_partial, Ebpf.Btf.enumConsts_fit, Ebpf.Btf.writeTypeDecl_fuel | Proved for all types laid out the ordinary C way, by induction over the formatter's recursion, against a specification of the gc compiler's layout. Excluded, each with a witness of wrong size or a panic: packed structs, structs ending in a flexible array, data sections without padding at the end or with variables larger than their type, members out of order, empty unions, 3-byte integers.
C69 | partial | Ebpf.Uprobe.uprobe_address_partial, Ebpf.Uprobe.uprobe_explicit, Ebpf.Uprobe.symbol_exact_partial, Ebpf.Uprobe.symbol_missing_partial, Ebpf.Uprobe.uprobeMulti_addresses_partial, Ebpf.Uprobe.failed_load_forgotten, Ebpf.Uprobe.unsized_function_rejected | Exact for ELF files with sane segments after any history of calls. False of the code, with witnesses: a failed first read is forgotten, so that later calls report a missing symbol; functions of size 0 cannot be probed by name.
C70 | proved | Ebpf.Sections.progType_most_specific, Ebpf.Sections.progType_unspecified, Ebpf.Sections.progType_extra, Ebpf.Sections.progType_names | For every name; the table (generated from elf_sections.go) is checked by the kernel to be ordered so that the first match is the most specific. Patterns without + are prefixes in this code, unlike in libbpf.
C71 | partial | Ebpf.BtfMap.btfMap_describes_partial, Ebpf.BtfMap.btfMap_accepts, Ebpf.BtfMap.values_misaligned, Ebpf.BtfMap.values_wrong_index, Ebpf.BtfMap.maxEntries_truncated, Ebpf.BtfMap.both_sizes_accepted, Ebpf.BtfMap.btfMap_name, Ebpf.BtfMap.innerMap_name | For all definitions; numbers modulo 2^32 and contents only for sections aligned to 8, because the code truncates numbers silently and uses the alignment of the section as the size of a pointer (witnesses).
C72 | proved | Ebpf.BtfCopy.copy_independent, Ebpf.BtfCopy.specCopy_independent, Ebpf.BtfCopy.splitCopy_independent, Ebpf.BtfCopy.base_ids_lost | For all heaps, with cycles. The copied base of a split spec loses the IDs of base types reached from the module until they are looked up again, which the API does not show (base_ids_lost). legacyBitfields is not part of this model.
C73 | partial | Ebpf.BtfCache.specs_race_free_partial, Ebpf.BtfCache.plain_specs_race_free, Ebpf.BtfCache.decoders_race_free, Ebpf.BtfCache.cache_one_spec, Ebpf.BtfCache.cache_module_base, Ebpf.BtfCache.module_specs_race, Ebpf.BtfCache.module_and_kernel_race, Ebpf.BtfCache.elf_spec_race | Proved for all specs that do not share a base and weren't read from an ELF; false of the code for split specs with a common base, since lookups write to the base without taking its lock (module_specs_race), and for specs read from an ELF, which keep track of fixed-up Datasecs without a lock (elf_spec_race).
C74 | proved | Ebpf.ProgLoad.load_complete, Ebpf.ProgLoad.load_bounded, Ebpf.ProgLoad.btfLoad_ends, Ebpf.ProgLoad.btfLoad_complete, Ebpf.ProgLoad.errorLog_lines, Ebpf.ProgLoad.summary_last, Ebpf.ProgLoad.huge_log_hides_error | For every kernel (a function of attempt and attributes) that follows Linux's log semantics; bounds on attempts for every kernel at all. Logs beyond 1 GiB hide the verdict (huge_log_hides_error). The text programLoadError adds and Format are not modelled.
C75 | partial | Ebpf.StructOps.structOps_partial, Ebpf.StructOps.populate_carries_partial, Ebpf.StructOps.programs_assigned_partial, Ebpf.StructOps.two_maps_same_type, Ebpf.StructOps.program_used_twice, Ebpf.StructOps.missing_program_silent, Ebpf.StructOps.populate_iff | Holds if no two struct_ops variables have the same type, no program is used for two members and all are loaded; false of the code otherwise (witnesses). Non-null data pointers of the object are dropped silently (memberValue: pointers are programs or null).
C76 | partial | Ebpf.AttachTarget.attach_right_target, Ebpf.AttachTarget.structOps_right_target, Ebpf.AttachTarget.findHandle_first, Ebpf.AttachTarget.search_ends, Ebpf.AttachTarget.findHandle_owned_partial, Ebpf.AttachTarget.load_owned_partial, Ebpf.AttachTarget.structOps_leaks, Ebpf.AttachTarget.findHandle_leaks, Ebpf.AttachTarget.module_leaks, Ebpf.AttachTarget.no_target | Targets are right for all kernels that do not change meanwhile; termination for all kernels; ownership for arbitrary kernels unless Info or parsing a module fails. False of the code: FindHandle and findTargetInModule leave the handle open on such errors (deferred Close of a nil handle), and every struct_ops program of a module leaks one handle (structOps_leaks, for all kernels), until the garbage collector closes it.
C77 | partial | Ebpf.Tracefs.kprobe_command, Ebpf.Tracefs.uprobe_command_partial, Ebpf.Tracefs.removal_command, Ebpf.Tracefs.command_refused, Ebpf.Tracefs.sanitizeIdentifier_spec, Ebpf.Tracefs.validIdentifier_iff, Ebpf.Tracefs.validSymbol_iff, Ebpf.Tracefs.randomGroup_spec, Ebpf.Tracefs.uprobe_path_space, Ebpf.Tracefs.uprobe_path_newline, Ebpf.Tracefs.uprobe_no_symbol | Full for kprobes. For uprobes the path must not contain white space or '#' (false of the code otherwise: a newline in the path makes a second command) and the symbol must not be empty.
C78 | partial | Ebpf.Probe.attach_owned, Ebpf.Probe.probes_owned_partial, Ebpf.Probe.close_releases, Ebpf.Probe.kprobe_target, Ebpf.Probe.uprobe_target, Ebpf.Probe.tracepoint_target, Ebpf.Probe.kprobe_prefers_plain, Ebpf.Probe.refCtr_config, Ebpf.Probe.refCtr_truncated, Ebpf.Probe.close_error_leaks, Ebpf.Probe.new_event_leaks | Targets on every kernel; ownership on kernels where cleaning up works and the ID of a new event can be read (Reliable). False of the code otherwise: new_event_leaks (event stays if its ID cannot be read), close_error_leaks (a failing close(2) of the link leaves perf and trace event); reference counters above 2^32 are cut off silently.
C79 | proved | Ebpf.Poller.poller_safe, Ebpf.Poller.close_unblocks, Ebpf.Poller.flush_unblocks, Ebpf.Poller.calls_terminate, Ebpf.Poller.wait_reports, Ebpf.Poller.wait_ids, Ebpf.Poller.flush_kept, Ebpf.Poller.flush_accounts, Ebpf.Poller.closed_called, Ebpf.Poller.closed_for_good, Ebpf.Poller.new_owned | Writing to an eventfd is assumed to succeed; bounded number of steps means not counting restarts of an interrupted epoll_wait.
C80 | partial | Ebpf.DataSec.variables_exact, Ebpf.DataSec.maps_exact, Ebpf.DataSec.types_exact_partial, Ebpf.DataSec.loads, Ebpf.DataSec.same_variables, Ebpf.DataSec.same_maps, Ebpf.DataSec.unmodified_identity, Ebpf.DataSec.load_depends_on_order, Ebpf.DataSec.type_depends_on_order, Ebpf.DataSec.alias_lost, Ebpf.DataSec.same_name_collides | False for the code when a Datasec lists a static variable with the name of a global in another section: whether the object loads, and which type the global has, depends on map iteration order (counterexamples proved). Of two symbols at the same address only the last becomes a variable, and two sections of the same name share one map. Without such names types and acceptance are proved.
C81 | partial | Ebpf.Batch.iterate_exact_partial, Ebpf.Batch.iterate_ends, Ebpf.Batch.array_iterates, Ebpf.Batch.htab_iterates, Ebpf.Batch.array_exact, Ebpf.Batch.htab_exact, Ebpf.Batch.buffers_suffice, Ebpf.Batch.count_reported, Ebpf.Batch.first_key, Ebpf.Batch.first_key_array, Ebpf.Batch.next_key_passed, Ebpf.Batch.first_failure_skips, Ebpf.Batch.interrupted_lost, Ebpf.Batch.undecodable_deleted, Ebpf.Batch.count_of_refused_batch | False for the code if the very first batch fails (going on with the cursor skips element 0 of an array) or the kernel fails after copying elements (they are dropped although the cursor has moved): counterexamples proved. Everything else is proved, for Linux arrays and hash tables in particular.
C82 | partial | Ebpf.MapCreate.newMap_descriptors_partial, Ebpf.MapCreate.newMap_result_partial, Ebpf.MapCreate.newMap_error_partial, Ebpf.MapCreate.newMap_creates, Ebpf.MapCreate.newMap_reuses, Ebpf.MapCreate.reuse_leaks, Ebpf.MapCreate.failed_contents_stay_pinned | False for the code when the number of CPUs can't be read while a pinned per-CPU map is reused: the descriptor leaks (reuse_leaks); the _partial theorems assume it can be read. A new map that can't be filled is closed but its pin stays (failed_contents_stay_pinned). struct_ops maps are C75/C76.
C83 | partial | Ebpf.Info.programInfo_exact_partial, Ebpf.Info.mapInfo_exact, Ebpf.Info.mapInfo_fdinfo, Ebpf.Info.tag_hex, Ebpf.Info.ksyms_zero_counterexample, Ebpf.Info.tag_fallback_counterexample | False for the code if a program isn't compiled and addresses are restricted (zero addresses are reported as known: ksyms_zero_counterexample), and the tag is not taken from fdinfo on kernels without the system call (tag_fallback_counterexample). programInfo_exact_partial covers every kernel since 4.13 otherwise. The lookup of the full name in BTF is an input.
C84 | partial | Ebpf.Sysc.bpf_plain, Ebpf.Sysc.bpf_token, Ebpf.Sysc.bpf_interrupted, Ebpf.Sysc.token_found, Ebpf.Sysc.token_commands_plain, Ebpf.Sysc.run_kept_partial, Ebpf.Sysc.sigsetAdd_exact, Ebpf.Sysc.profSet_exact, Ebpf.Sysc.sigprof_unblocked, Ebpf.Sysc.token_error_stays | False for the code if the calling thread already had SIGPROF blocked: it is unblocked afterwards (sigprof_unblocked); run_kept_partial assumes it isn't blocked. An unexpected error while looking for a token is kept for the life of the process (token_error_stays).
C85 | partial | Ebpf.Anchor.attach_exact_partial, Ebpf.Anchor.attachLink_exact, Ebpf.Anchor.attach_refused, Ebpf.Anchor.anchor_closed, Ebpf.Anchor.hook_exact, Ebpf.Anchor.detach_exact, Ebpf.Anchor.query_exact, Ebpf.Anchor.replaceByID_fails, Ebpf.Anchor.detach_ends_fail | False for the code with ReplaceProgramByID, which the kernel always refuses (replaceByID_fails): the ID is passed as replace_bpf_fd with the flag for relative IDs. attach_exact_partial covers all other anchors. Against a specification of Linux's mprog lists, not against legacy cgroup attachment.
C86 | partial | Ebpf.Cgroup.attach_exact_partial, Ebpf.Cgroup.attach_succeeds, Ebpf.Cgroup.update_exact, Ebpf.Cgroup.update_succeeds, Ebpf.Cgroup.close_exact, Ebpf.Cgroup.history, Ebpf.Cgroup.override_counterexample, Ebpf.Cgroup.close_ok | False for the code before Linux 5.5, where override mode is used: a second link takes the first one's place and closing the first detaches the second (override_counterexample). Everything is proved for kernels that have links or can replace programs. If the kernel refuses to detach, Close returns the error with the descriptors closed and the program attached (part of close_exact).
C87 | partial | Ebpf.Assign.assign_succeeds_partial, Ebpf.Assign.assign_exact, Ebpf.Assign.assign_error, Ebpf.Assign.coll_ownership, Ebpf.Assign.coll_exactly_one, Ebpf.Assign.assign_cyclic_diverges | False for the code if a struct points to itself through untagged fields: the set of visited types is never added to, so the recursion never ends (assign_cyclic_diverges) and the program dies of stack overflow. assign_succeeds_partial is for all other structs.
C88 | proved | Ebpf.LinkIter.newFromID_exact, Ebpf.LinkIter.newFromFD_exact, Ebpf.LinkIter.loadPinned_exact, Ebpf.LinkIter.classOf_linux, Ebpf.LinkIter.iterate_complete, Ebpf.LinkIter.iterate_fds, Ebpf.LinkIter.next_returns, Ebpf.LinkIter.succeeds | Time is counted in system calls; between any two of them the set of links is arbitrary. Descriptor 0 (which NewFD replaces by a duplicate) is the subject of C13.
C89 | partial | Ebpf.AttachLinks.rawLink_exact, Ebpf.AttachLinks.xdp_exact, Ebpf.AttachLinks.netNs_exact, Ebpf.AttachLinks.freplace_exact, Ebpf.AttachLinks.tracing_exact, Ebpf.AttachLinks.tracing_succeeds, Ebpf.AttachLinks.tracing_mismatch_attached, Ebpf.AttachLinks.rawTracepoint_exact_partial, Ebpf.AttachLinks.rawTracepoint_leaks, Ebpf.AttachLinks.kprobeMulti_exact, Ebpf.AttachLinks.kprobeMulti_result, Ebpf.AttachLinks.uprobeMulti_exact, Ebpf.AttachLinks.uprobeMulti_unsupported_partial, Ebpf.AttachLinks.netfilter_exact, Ebpf.AttachLinks.iter_exact, Ebpf.AttachLinks.structOps_exact, Ebpf.AttachLinks.unsupported_reported, Ebpf.AttachLinks.others_succeed | False for the code in three places. AttachRawTracepoint leaks the attached program if testing for links fails unexpectedly (rawTracepoint_leaks). An AttachType which isn't the program's own is not refused by AttachTracing: the program is attached with its own type (tracing_mismatch_attached). UprobeMulti reports a kernel without it as ErrNotSupported only if the error was not EINVAL. Everything else is proved for all options and kernels; lists shorter than 2^32.
C90 | partial | Ebpf.Asm.Construct.alu_reg, Ebpf.Asm.Construct.alu_imm, Ebpf.Asm.Construct.alu_reg32, Ebpf.Asm.Construct.alu_imm32, Ebpf.Asm.Construct.alu_misuse, Ebpf.Asm.Construct.hostTo_does, Ebpf.Asm.Construct.bSwap_does, Ebpf.Asm.Construct.swap_size_refused, Ebpf.Asm.Construct.jump_reg, Ebpf.Asm.Construct.jump_reg32, Ebpf.Asm.Construct.jump_imm, Ebpf.Asm.Construct.jump_imm32, Ebpf.Asm.Construct.jump_others, Ebpf.Asm.Construct.builtinCall_does, Ebpf.Asm.Construct.loadMem_does, Ebpf.Asm.Construct.loadMemSX_does, Ebpf.Asm.Construct.storeMem_does, Ebpf.Asm.Construct.storeImm_does, Ebpf.Asm.Construct.loadPacket_does, Ebpf.Asm.Construct.loadInd_dst_refused, Ebpf.Asm.Construct.loadImm_does, Ebpf.Asm.Construct.loadMap_does, Ebpf.Asm.Construct.atomic_add_partial, Ebpf.Asm.Construct.atomic_all_add, Ebpf.Asm.Construct.atomic_small_refused, Ebpf.Asm.Construct.xchg_doesnt | False for the code in two places: Marshal drops the atomic operation, so that every AtomicOp, LoadAcquire and StoreRelease is executed as a plain atomic addition (atomic_all_add, xchg_doesnt; see C05), and LoadInd with a destination other than R0 is accepted by no machine (loadInd_dst_refused). All else is proved against the RFC's semantics for all operands and states. The machine is one instruction at a time; helpers, maps and calls are events.
C91 | partial | Ebpf.ProgRun.run_exact_partial, Ebpf.ProgRun.run_returns, Ebpf.ProgRun.run_succeeds, Ebpf.ProgRun.test_exact, Ebpf.ProgRun.benchmark_exact, Ebpf.ProgRun.interrupted_lies, Ebpf.ProgRun.empty_out_panics, Ebpf.ProgRun.sizeless_panics | False for the code in three places: before Linux 5.14 a signal during a single run makes it report success with return value 0 and stale data (interrupted_lies), a DataOut which is empty but not nil panics (empty_out_panics), a ContextOut without fixed size panics (sizeless_panics). Otherwise proved for all options, programs and signals. Linux's side is Spec/ProgRun; Windows isn't modelled; buffers shorter than 4 GiB.
C92 | partial | Ebpf.MapOps.lookup_dictionary, Ebpf.MapOps.lookupBytes_dictionary, Ebpf.MapOps.lookupAndDelete_dictionary_partial, Ebpf.MapOps.update_dictionary, Ebpf.MapOps.update_flags, Ebpf.MapOps.delete_dictionary, Ebpf.MapOps.history_dictionary, Ebpf.MapOps.put_lookup, Ebpf.MapOps.not_a_key, Ebpf.MapOps.lookup_nested, Ebpf.MapOps.nested_roundtrip, Ebpf.MapOps.update_perCPU, Ebpf.MapOps.lookup_perCPU_partial, Ebpf.MapOps.lookupAndDelete_perCPU_partial, Ebpf.MapOps.perCPU_roundtrip_map, Ebpf.MapOps.nextKey_dictionary, Ebpf.MapOps.firstKey_dictionary_partial, Ebpf.MapOps.operations_in_bounds, Ebpf.MapOps.lookupAndDelete_loses_counterexample, Ebpf.MapOps.perCPU_missing_clears_counterexample, Ebpf.MapOps.first_key_skipped_counterexample, Ebpf.MapOps.nextKey_refused | False for the code in three places: LookupAndDelete into a destination that doesn't suit loses the element; a failed Lookup into a pointer to a slice of per-CPU values replaces the slice by zeros; on kernels before 4.4.132 a concurrent insertion makes NextKey(nil) skip keys. Otherwise proved for all histories, types (without blank fields) and kernel answers. Slices of pointers for per-CPU values and queue semantics are not modelled.
C93 | partial | Ebpf.KeepAlive.caller_holds_never_wrong, Ebpf.KeepAlive.last_use_never_wrong_partial, Ebpf.KeepAlive.last_use_exposed_iff, Ebpf.KeepAlive.cursor_protects_map, Ebpf.KeepAlive.keepalive_example | Proved for all 53 functions modelled as long as the caller goes on holding what it passed (caller_holds_never_wrong: includes the descriptors the functions make themselves), and without that for 25 of them (last_use_never_wrong_partial). False for the code of the others, which lack a runtime.KeepAlive: last_use_exposed_iff says exactly for which arguments, and that the kernel may then be given the number of any other file. Liveness is what the Go specification promises (a later use on some path); what the compiler keeps beyond that isn't modelled.
C94 | partial | Ebpf.Features.haveMapType_truthful_partial, Ebpf.Features.haveMapType_conclusive_partial, Ebpf.Features.storage_missed, Ebpf.Features.haveMapFlag_truthful, Ebpf.Features.haveProgramType_truthful_partial, Ebpf.Features.haveProgramHelper_truthful, Ebpf.Features.haveLink_truthful, Ebpf.Features.process_exists | False as stated for CGroupStorage and PerCPUCGroupStorage in 32-bit processes where the key has 16 bytes: ErrNotSupported although the type is there (storage_missed); proved otherwise. The probes for the program types Tracing, Extension and LSM, which look up BTF, aren't modelled. Linux's answers are a specification written from its sources.
C95 | proved | Ebpf.Btf.relocate_correct, Ebpf.Btf.relocate_deterministic, Ebpf.Btf.relocate_failure, Ebpf.Btf.program_relocated, Ebpf.Btf.no_relocations | coreCalculateFixup is a parameter (C34-C36), as is TypesByName of each target (C28); the builder is that of C27 (without deduplication)
C96 | partial | Ebpf.OpenReader.perf_open, Ebpf.OpenReader.perf_open_indices, Ebpf.OpenReader.perf_open_succeeds, Ebpf.OpenReader.perf_open_refuses, Ebpf.OpenReader.perf_open_failure_partial, Ebpf.OpenReader.perf_open_failure_rest, Ebpf.OpenReader.perf_open_leak, Ebpf.OpenReader.perf_close, Ebpf.OpenReader.ringbuf_open, Ebpf.OpenReader.ringbuf_open_succeeds, Ebpf.OpenReader.ringbuf_open_failure, Ebpf.OpenReader.ringbuf_close | False as stated in one case: if putting an event into the array fails, NewReaderWithOptions doesn't close its copy of the array's descriptor (perf_open_leak); everything else is closed even then (perf_open_failure_rest). Linux 64 bit; the floating point of perfBufferSize is taken as exact
C97 | proved | Ebpf.KernelInfo.vdso_address, Ebpf.KernelInfo.version_code, Ebpf.KernelInfo.version_code_missing, Ebpf.KernelInfo.sections_end, Ebpf.KernelInfo.kernel_version, Ebpf.KernelInfo.possible_cpus, Ebpf.KernelInfo.new_version, Ebpf.KernelInfo.new_version_overflow, Ebpf.KernelInfo.select_version, Ebpf.KernelInfo.select_version_none, Ebpf.KernelInfo.blanks_skipped | The section contents are given (NewSafeELFFile isn't modelled); Sscanf is modelled on ASCII. A malformed vDSO with a name of 2^31-3 bytes or more makes reading panic (huge_name_panics)
C98 | partial | Ebpf.Rlimit.detect_restores, Ebpf.Rlimit.remove_nil, Ebpf.Rlimit.remove_noop_partial, Ebpf.Rlimit.remove_old, Ebpf.Rlimit.remove_misjudges, Ebpf.Rlimit.restore_fails | False as stated: on a kernel with cgroup accounting a process which may not create maps gets EPERM, which is taken for a missing feature, so RemoveMemlock raises the limit or fails there (remove_misjudges). If the hard limit is raised between two calls of the initialisation, the limit stays at zero and the probe's map stays open (restore_fails)
C99 | partial | Ebpf.LinkInfo.info_true, Ebpf.LinkInfo.info_told, Ebpf.LinkInfo.info_complete_partial, Ebpf.LinkInfo.unknown_is_absent, Ebpf.LinkInfo.old_kernel_hides | False as stated on some kernels: before the kernel told the length of names without a buffer, names of perf event links are silently empty; on 6.6 to 6.8 cookies of kprobe_multi links are silently zero; a process that isn't visible is reported as no process (old_kernel_hides)
C100 | partial | Ebpf.UnsafeMemory.checkType_iff, Ebpf.UnsafeMemory.hostLayout_noPointers, Ebpf.UnsafeMemory.newUnsafeMemory_ok, Ebpf.UnsafeMemory.newUnsafeMemory_complete, Ebpf.UnsafeMemory.newUnsafeMemory_fails, Ebpf.UnsafeMemory.variablePointer_sound, Ebpf.UnsafeMemory.variablePointer_complete, Ebpf.UnsafeMemory.pointer_is_variable, Ebpf.UnsafeMemory.memory_safe_partial, Ebpf.UnsafeMemory.refused_mapping_tears_heap, Ebpf.UnsafeMemory.uintptr_upper_half, Ebpf.UnsafeMemory.variable_access_safe, Ebpf.UnsafeMemory.memory_access_safe_partial, Ebpf.UnsafeMemory.memory_access_unmapped, Ebpf.UnsafeMemory.basic_size | False as stated in three cases: a mapping refused by the map's own mmap handler, after MAP_FIXED removed what was there, leaves a hole in the Go heap (refused_mapping_tears_heap); on 32-bit big-endian hosts a *uintptr to an 8-byte variable reads its upper half (uintptr_upper_half); Memory.ReadAt and WriteAt as the last use of a Memory may be unmapped under the copy (memory_access_unmapped)
C101 | partial | Ebpf.Targets.findTarget_iff, Ebpf.Targets.findTarget_arches, Ebpf.Targets.findTarget_means, Ebpf.Targets.right_object_partial, Ebpf.Targets.other_files_kept, Ebpf.Targets.old_files_removed, Ebpf.Targets.at_most_one, Ebpf.Targets.default_covers, Ebpf.Targets.flags_effective, Ebpf.Targets.bpf_everywhere, Ebpf.Targets.dot_hides, Ebpf.Targets.underscore_hides | False as stated for the target bpf, whose file has no constraint and is part of builds for the other byte order (bpf_everywhere); files are left out of builds if the output stem contains a dot preceded by the name of an architecture (dot_hides) or begins with an underscore, as an identifier may (underscore_hides). Compiling always succeeds in the model; an output suffix other than none and _test isn't covered
C102 | partial | Ebpf.Bindings.identifier_exported, Ebpf.Bindings.select_declares, Ebpf.Bindings.collected_partial, Ebpf.Bindings.which_type_is_random, Ebpf.Bindings.array_values_missed, Ebpf.Bindings.sortTypes_spec, Ebpf.Bindings.generate_complete, Ebpf.Bindings.generate_deterministic, Ebpf.Bindings.generate_succeeds, Ebpf.Bindings.names_distinct_partial, Ebpf.Bindings.map_specs_clashes, Ebpf.Bindings.map_type_clashes, Ebpf.Bindings.close_clashes, Ebpf.Bindings.fields_clash, Ebpf.Bindings.data_sections_skipped, Ebpf.Bindings.typeNames_once, Ebpf.Bindings.close_all_partial, Ebpf.Bindings.close_stops, Ebpf.Bindings.generate_iff | False as stated: keys and values that are arrays don't have their elements declared (array_values_missed); which of two C types of one name is declared depends on the order in which Go visits maps (which_type_is_random); a map named specs, a map x with a C type map_x, a program or map named close, and names differing only by underscores or case give code that doesn't compile (map_specs_clashes, map_type_clashes, close_clashes, fields_clash); the first error of Close leaves the rest open (close_stops). Names are ASCII; the text of the template is modelled by the declarations in it
C103 | partial | Ebpf.MakeDeps.depFile_rules_partial, Ebpf.MakeDeps.no_rules, Ebpf.MakeDeps.first_rule_exists, Ebpf.MakeDeps.last_newline_optional, Ebpf.MakeDeps.line_ends, Ebpf.MakeDeps.blank_in_directory, Ebpf.MakeDeps.continuation_lines | Proved for names that need no quoting and files of at most 1 MiB. False otherwise: a blank in the working directory gives a file naming other files (blank_in_directory); a continuation line without blanks around it glues two names and one at the end of the file makes the rule disappear without an error (continuation_lines). Symbolic links and the limit of bufio.Scanner for a line aren't modelled
C104 | proved | Ebpf.Args.split_iff, Ebpf.Args.any_words, Ebpf.Args.plain_words, Ebpf.Args.not_a_shell, Ebpf.Args.splitCFlags_iff, Ebpf.Args.setType_spec, Ebpf.Args.setTypes_spec | split_iff is against a grammar of quoted words. Differences from a shell are in not_a_shell: a closing quote ends a word, tabs don't, and an escaped blank at the end is trimmed
C105 | partial | Ebpf.PinWalk.walk_root, Ebpf.PinWalk.walk_order, Ebpf.PinWalk.walk_complete, Ebpf.PinWalk.walk_sound, Ebpf.PinWalk.walk_all, Ebpf.PinWalk.walk_stops, Ebpf.PinWalk.walk_returns, Ebpf.PinWalk.walk_error, Ebpf.PinWalk.walk_descriptors_partial, Ebpf.PinWalk.walk_leaks, Ebpf.PinWalk.walk_hides | The claim about descriptors is false in one case: a map with values per CPU when the number of possible CPUs can't be found (walk_leaks). By walk_sound objects handed out don't know their path, so that Unpin of one does nothing. One entry that can't be loaded hides all objects after it (walk_hides)
C106 | proved | Ebpf.ElfMaps.maps_ok_iff, Ebpf.ElfMaps.maps_exact, Ebpf.ElfMaps.maps_order, Ebpf.ElfMaps.head_exact, Ebpf.ElfMaps.data_iff, Ebpf.ElfMaps.program_iff | debug/elf, which parses the container, is not modelled; sections and symbols are lists. A section whose name merely begins with license, version or maps is never taken for a program, whatever it contains
C107 | partial | Ebpf.KernelBtf.elf_exact, Ebpf.KernelBtf.not_found_iff, Ebpf.KernelBtf.file_exact, Ebpf.KernelBtf.kernel_own, Ebpf.KernelBtf.kernel_found, Ebpf.KernelBtf.kernel_not_supported_partial, Ebpf.KernelBtf.disabled_not_found, Ebpf.KernelBtf.unreadable_hides, Ebpf.KernelBtf.kernel_tidy, Ebpf.KernelBtf.module_tidy, Ebpf.KernelBtf.module_exact, Ebpf.KernelBtf.module_inside, Ebpf.KernelBtf.modules_history, Ebpf.KernelBtf.modules_errors | All but the error when BTF isn't enabled: with a vmlinux without BTF in one of the places it is ErrNotFound, not ErrNotSupported as documented (disabled_not_found). A vmlinux that may not be read hides those after it (unreadable_hides), and the list of modules is never refreshed (modules_history)
C108 | proved | Ebpf.ElfVirtual.structOps_exact, Ebpf.ElfVirtual.structOps_order, Ebpf.ElfVirtual.kconfig_exact, Ebpf.ElfVirtual.ksyms_exact, Ebpf.ElfVirtual.ksyms_none, Ebpf.ElfVirtual.inner_exact, Ebpf.ElfVirtual.create_exact, Ebpf.ElfVirtual.create_unsupported | For sections below 4 GiB and programs with distinct names (they are a Go map). TypeByName and finding types in the kernel are oracles (C28, C76); a type found is assumed to have an ID (otherwise the handle of its module would leak).
C109 | proved | Ebpf.ProgHandles.load_exact, Ebpf.ProgHandles.handle_exact, Ebpf.ProgHandles.setHandle_exact, Ebpf.ProgHandles.clone_exact, Ebpf.ProgHandles.fromID_exact, Ebpf.ProgHandles.close_exact, Ebpf.ProgHandles.history, Ebpf.ProgHandles.nothing_left | What each step of loading computes is an outcome (C11, C32, C58, C61-C64, C74); loading of struct_ops programs whose type is in a module (which leaks a handle, C76) is not modelled, nor is Windows. Close closes the descriptor even if close(2) reports an error, as on Linux.
C110 | proved | Ebpf.KconfigMap.kconfig_sound, Ebpf.KconfigMap.kconfig_complete, Ebpf.KconfigMap.kconfig_unique, Ebpf.KconfigMap.kconfig_order, Ebpf.KconfigMap.kconfig_missing, Ebpf.KconfigMap.kconfig_no_panic, Ebpf.KconfigMap.kconfig_no_file, Ebpf.KconfigMap.kconfig_typedef_version | For sections as a compiler makes them (Layout: variables inside and apart, integers no larger than their variable, distinct names), lines below 64 KiB and versions with parts below 256. What a text denotes as a number is an oracle (strconv). LINUX_KERNEL_VERSION behind a typedef (such as __u32) is refused (kconfig_typedef_version).
C111 | proved | Ebpf.Asm.Assoc.associate_exact, Ebpf.Asm.Assoc.associate_unreferenced, Ebpf.Asm.Assoc.associate_notLoad, Ebpf.Asm.Assoc.associate_empty, Ebpf.Asm.Assoc.associate_twice, Ebpf.Asm.Assoc.associate_order, Ebpf.Asm.Assoc.associate_all, Ebpf.Asm.Assoc.symbolOffsets_fails, Ebpf.Asm.Assoc.symbolOffsets_exact, Ebpf.Asm.Assoc.referenceOffsets_exact, Ebpf.Asm.Assoc.referenceOffsets_none, Ebpf.Asm.Assoc.name_exact, Ebpf.Asm.Assoc.tag_exact, Ebpf.Asm.Assoc.hasTag_exact, Ebpf.Asm.Assoc.hasTag_error, Ebpf.Asm.Assoc.hasTag_tag, Ebpf.Asm.Assoc.associate_keeps_tag, Ebpf.Asm.Assoc.tag_only_code, Ebpf.Asm.Assoc.hex_unique, Ebpf.Asm.Assoc.hex_injective, Ebpf.Asm.Assoc.hashed_unique | AssociateMap, SymbolOffsets, ReferenceOffsets, Name, Tag and HasTag, exact for every program. When AssociateMap fails because an instruction isn't a load of a map, it has already changed the instructions before it (associate_notLoad): the code's own behaviour, stated as such. The hash functions are parameters.
C112 | proved | Ebpf.MapAttr.name_exact, Ebpf.MapAttr.name_kept, Ebpf.MapAttr.create_exact, Ebpf.MapAttr.create_refused, Ebpf.MapAttr.create_errors, Ebpf.MapAttr.report_feature, Ebpf.MapAttr.report_ring, Ebpf.MapAttr.report_hints, Ebpf.MapAttr.report_cause, Ebpf.MapAttr.report_privileges, Ebpf.MapAttr.missing_none, Ebpf.MapAttr.hint_none | createMap's attributes and calls and handleMapCreateError, exact for every spec, environment and kernel (Linux only; Windows' handling of flags isn't modelled). Probes, MarshalMapKV and structOpsFindTarget are given by their outcomes. Messages keep the hint and what they wrap. In the second attempt for struct_ops the kernel's type is still asked for (an example).
C113 | proved | Ebpf.VerifierText.error_exact, Ebpf.VerifierText.format_short, Ebpf.VerifierText.format_misuse, Ebpf.VerifierText.format_first, Ebpf.VerifierText.format_last, Ebpf.VerifierText.format_all | Error and Format of VerifierError, exact as bytes, for every log, verb, flags and width. Lines are ASCII (strings.TrimSpace would also trim Unicode white space).
C114 | proved | Ebpf.OnceCache.read_exact, Ebpf.OnceCache.once_agree, Ebpf.OnceCache.once_true, Ebpf.OnceCache.once_error, Ebpf.OnceCache.once_memo, Ebpf.OnceCache.once_no_race, Ebpf.OnceCache.once_progress, Ebpf.OnceCache.Probes.retrieve_agree, Ebpf.OnceCache.Probes.retrieve_true, Ebpf.OnceCache.Probes.retrieve_once, Ebpf.OnceCache.Probes.retrieve_no_race, Ebpf.OnceCache.Probes.retrieve_progress | Any number of goroutines, all interleavings; files are ASCII and may change between reads; newTest returns (a panic in it isn't modelled) and the test it made is then run as in C42. Progress means that no state is stuck; fairness of the scheduler is not modelled.
C115 | proved | Ebpf.MapHandles.history, Ebpf.MapHandles.nothing_left, Ebpf.MapHandles.fromID_exact, Ebpf.MapHandles.loadPinned_exact, Ebpf.MapHandles.clone_exact, Ebpf.MapHandles.close_exact, Ebpf.MapHandles.memory_exact, Ebpf.MapHandles.handle_exact | Sequential histories on Linux. If PossibleCPU fails for a per-CPU map, the code leaves the descriptor to the garbage collector instead of closing it (stated in fromID_exact). What the kernel says of a map is taken to be constant. Creating maps is C82, the size of the memory C60.
C116 | proved | Ebpf.TracefsPath.found_exact, Ebpf.TracefsPath.found_dir, Ebpf.TracefsPath.sanitize_exact, Ebpf.TracefsPath.sanitize_contained, Ebpf.TracefsPath.sanitize_names, Ebpf.TracefsPath.eventID_exact, Ebpf.TracefsPath.eventID_distinct, Ebpf.TracefsPath.eventsFile_exact, Ebpf.TracefsPath.nowhere | Mount points are absolute and clean, as the kernel prints them. sync.OnceValues isn't modelled (the first answer, also an error, is kept for the life of the process). The check against escaping compares text, so that a path such as ../tracing2 passes it (stated in sanitize_contained); group and name are checked before, so that this can't be reached by callers of EventID.
C117 | proved | Ebpf.SpecCopy.copy_same, Ebpf.SpecCopy.copy_new, Ebpf.SpecCopy.copy_protects, Ebpf.SpecCopy.copy_protected, Ebpf.SpecCopy.copyMap_linked, Ebpf.SpecCopy.copy_linked | Values in MapSpec.Contents (documented as a shallow copy), AttachTarget and metadata of instructions stay shared and are left out. ProgramSpec.Copy turns nil Instructions into an empty slice (as modelled). Not modelled: VariableSpec.Copy of a nil entry panics, and inner maps that form a cycle of more than one map make MapSpec.Copy recur forever; specifications are finite trees whose maps may name themselves. Copies of BTF types and Specs are C81.
C118 | proved | Ebpf.BtfFormat.format_exact, Ebpf.BtfFormat.format_local, Ebpf.BtfFormat.format_complete, Ebpf.BtfFormat.format_shows, Ebpf.BtfFormat.format_bounded | The labels' quotes (%q) and addresses (%#p) are those of package fmt, taken as parameters. Types refer to types (a nil Type is printed as <nil>; not modelled). After a tag's value that is empty or ends in an equal sign the space is missing (stated by gap in the specification), and values of tags aren't quoted. The text can grow exponentially with the width, by arrays whose index and element types both have details.
C119 | partial | Ebpf.VarSpec.set_exact, Ebpf.VarSpec.set_untyped, Ebpf.VarSpec.set_failed_partial, Ebpf.VarSpec.set_failed_counterexample, Ebpf.VarSpec.set_empty_counterexample, Ebpf.VarSpec.get_after_set, Ebpf.VarSpec.get_exact, Ebpf.VarSpec.set_place, Ebpf.VarSpec.set_loadable | The code falsifies the rest: an attempt to set a variable that has no value, if it fails, leaves it with zeros, so that it counts as initialized and Get succeeds (set_failed_counterexample); and a variable whose value has no bytes accepts any value of known size and loses it (set_empty_counterexample). Kinds of Go values are codecs, as in C15; binary.Size is a parameter. Setting nil isn't modelled.
