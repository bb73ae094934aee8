import Verif.Base
import Verif.Lemmas.Bits
import Verif.Lemmas.Blocks
import Verif.Lemmas.Instruction
import Verif.Lemmas.Lists
import Verif.Lemmas.Ringbuf
import Verif.Model.Anchor
import Verif.Model.Args
import Verif.Model.Assign
import Verif.Model.Associate
import Verif.Model.AttachLinks
import Verif.Model.AttachTarget
import Verif.Model.Batch
import Verif.Model.BatchLookup
import Verif.Model.Bindings
import Verif.Model.BtfCache
import Verif.Model.BtfCopy
import Verif.Model.BtfDatasec
import Verif.Model.BtfDedup
import Verif.Model.BtfExtInfo
import Verif.Model.BtfFormat
import Verif.Model.BtfHeader
import Verif.Model.BtfIndex
import Verif.Model.BtfMaps
import Verif.Model.BtfMarshal
import Verif.Model.BtfStrings
import Verif.Model.BtfTraversal
import Verif.Model.BtfTypes
import Verif.Model.BtfUnmarshal
import Verif.Model.Cgroup
import Verif.Model.Collection
import Verif.Model.Construct
import Verif.Model.CoreCompat
import Verif.Model.CoreField
import Verif.Model.CoreFixup
import Verif.Model.CoreRelocate
import Verif.Model.DataSections
import Verif.Model.Deque
import Verif.Model.ElfMaps
import Verif.Model.ElfReader
import Verif.Model.ElfSectionTable
import Verif.Model.ElfVirtual
import Verif.Model.Fd
import Verif.Model.Feature
import Verif.Model.Features
import Verif.Model.GoFormat
import Verif.Model.Helpers
import Verif.Model.Info
import Verif.Model.Instruction
import Verif.Model.Kallsyms
import Verif.Model.Kconfig
import Verif.Model.KconfigMap
import Verif.Model.KeepAlive
import Verif.Model.KernelBtf
import Verif.Model.KernelInfo
import Verif.Model.LinkInfo
import Verif.Model.LinkIter
import Verif.Model.Linker
import Verif.Model.LinkerFixups
import Verif.Model.MakeDeps
import Verif.Model.MapAttr
import Verif.Model.MapCreate
import Verif.Model.MapHandles
import Verif.Model.MapIter
import Verif.Model.MapOps
import Verif.Model.MapSpec
import Verif.Model.Memory
import Verif.Model.Metadata
import Verif.Model.Mountinfo
import Verif.Model.OnceCache
import Verif.Model.OpCode
import Verif.Model.OpenReader
import Verif.Model.PerCPU
import Verif.Model.Perf
import Verif.Model.PerfReader
import Verif.Model.PinWalk
import Verif.Model.Pinning
import Verif.Model.Platform
import Verif.Model.Poller
import Verif.Model.Probe
import Verif.Model.ProgHandles
import Verif.Model.ProgLoad
import Verif.Model.ProgRun
import Verif.Model.Program
import Verif.Model.RingReader
import Verif.Model.Ringbuf
import Verif.Model.Rlimit
import Verif.Model.Sections
import Verif.Model.SpecCopy
import Verif.Model.StructOps
import Verif.Model.Syscall
import Verif.Model.Sysenc
import Verif.Model.Targets
import Verif.Model.Tracefs
import Verif.Model.TracefsPath
import Verif.Model.UnsafeMemory
import Verif.Model.Uprobe
import Verif.Model.VariableSpec
import Verif.Model.VerifierText
import Verif.Props.Anchor
import Verif.Props.Args
import Verif.Props.Assign
import Verif.Props.Associate
import Verif.Props.AttachLinks
import Verif.Props.AttachTarget
import Verif.Props.Batch
import Verif.Props.BatchLookup
import Verif.Props.Bindings
import Verif.Props.BtfBlob
import Verif.Props.BtfC26
import Verif.Props.BtfCache
import Verif.Props.BtfCopy
import Verif.Props.BtfDatasec
import Verif.Props.BtfDedup
import Verif.Props.BtfDedupEx
import Verif.Props.BtfDedupPreserve
import Verif.Props.BtfDedupTotal
import Verif.Props.BtfExamples
import Verif.Props.BtfExtInfo
import Verif.Props.BtfExtParse
import Verif.Props.BtfFile
import Verif.Props.BtfFormat
import Verif.Props.BtfHeader
import Verif.Props.BtfIds
import Verif.Props.BtfIndex
import Verif.Props.BtfInflate
import Verif.Props.BtfLookup
import Verif.Props.BtfMaps
import Verif.Props.BtfMarshalTotal
import Verif.Props.BtfReadable
import Verif.Props.BtfRecord
import Verif.Props.BtfRestore
import Verif.Props.BtfRoundTrip
import Verif.Props.BtfStable
import Verif.Props.BtfStrings
import Verif.Props.BtfTags
import Verif.Props.BtfTotal
import Verif.Props.BtfTraversal
import Verif.Props.BtfTypes
import Verif.Props.Cgroup
import Verif.Props.Collection
import Verif.Props.CollectionEx
import Verif.Props.CollectionPop
import Verif.Props.CollectionTotal
import Verif.Props.Construct
import Verif.Props.CoreBits
import Verif.Props.CoreCompat
import Verif.Props.CoreField
import Verif.Props.CoreFixup
import Verif.Props.CoreMatch
import Verif.Props.CoreReloc
import Verif.Props.CoreRelocEx
import Verif.Props.CoreRelocate
import Verif.Props.DataSection
import Verif.Props.DataSections
import Verif.Props.Deque
import Verif.Props.ElfCalls
import Verif.Props.ElfData
import Verif.Props.ElfLink
import Verif.Props.ElfLoad
import Verif.Props.ElfMaps
import Verif.Props.ElfReloc
import Verif.Props.ElfVirtual
import Verif.Props.Fd
import Verif.Props.Feature
import Verif.Props.Features
import Verif.Props.GoFormat
import Verif.Props.Helpers
import Verif.Props.Info
import Verif.Props.Instruction
import Verif.Props.InstructionEnc
import Verif.Props.Kallsyms
import Verif.Props.Kconfig
import Verif.Props.KconfigMap
import Verif.Props.KconfigPut
import Verif.Props.KeepAlive
import Verif.Props.KernelBtf
import Verif.Props.KernelInfo
import Verif.Props.KfuncFixups
import Verif.Props.KsymFixups
import Verif.Props.LinkInfo
import Verif.Props.LinkIter
import Verif.Props.Linker
import Verif.Props.LoadFixups
import Verif.Props.MakeDeps
import Verif.Props.MapAttr
import Verif.Props.MapCreate
import Verif.Props.MapHandles
import Verif.Props.MapIter
import Verif.Props.MapOps
import Verif.Props.MapOpsBase
import Verif.Props.MapOpsDict
import Verif.Props.MapOpsNested
import Verif.Props.MapSpec
import Verif.Props.Memory
import Verif.Props.Metadata
import Verif.Props.Mountinfo
import Verif.Props.OnceCache
import Verif.Props.OpCode
import Verif.Props.OpenReader
import Verif.Props.PerCPU
import Verif.Props.Perf
import Verif.Props.PerfReader
import Verif.Props.PinWalk
import Verif.Props.Pinning
import Verif.Props.Platform
import Verif.Props.Poller
import Verif.Props.Probe
import Verif.Props.ProgHandles
import Verif.Props.ProgLoad
import Verif.Props.ProgRun
import Verif.Props.Program
import Verif.Props.References
import Verif.Props.RingReader
import Verif.Props.Ringbuf
import Verif.Props.Rlimit
import Verif.Props.Sections
import Verif.Props.SpecCopy
import Verif.Props.StructOps
import Verif.Props.Syscall
import Verif.Props.Sysenc
import Verif.Props.Targets
import Verif.Props.Tracefs
import Verif.Props.TracefsPath
import Verif.Props.UnsafeMemory
import Verif.Props.Uprobe
import Verif.Props.VariableSpec
import Verif.Props.VerifierText
import Verif.Spec.Anchor
import Verif.Spec.Args
import Verif.Spec.Assign
import Verif.Spec.Associate
import Verif.Spec.AttachLinks
import Verif.Spec.AttachTarget
import Verif.Spec.Batch
import Verif.Spec.Bindings
import Verif.Spec.BtfCache
import Verif.Spec.BtfCopy
import Verif.Spec.BtfDatasec
import Verif.Spec.BtfDedup
import Verif.Spec.BtfExtInfo
import Verif.Spec.BtfFormat
import Verif.Spec.BtfHeader
import Verif.Spec.BtfIds
import Verif.Spec.BtfIndex
import Verif.Spec.BtfMaps
import Verif.Spec.BtfRecord
import Verif.Spec.BtfRoundTrip
import Verif.Spec.BtfStrings
import Verif.Spec.BtfTraversal
import Verif.Spec.BtfTypes
import Verif.Spec.Cgroup
import Verif.Spec.Core
import Verif.Spec.CoreCompat
import Verif.Spec.CoreField
import Verif.Spec.CoreRelocate
import Verif.Spec.DataSections
import Verif.Spec.Deque
import Verif.Spec.ElfMaps
import Verif.Spec.ElfReloc
import Verif.Spec.ElfVirtual
import Verif.Spec.Feature
import Verif.Spec.Features
import Verif.Spec.GoFormat
import Verif.Spec.Info
import Verif.Spec.Instruction
import Verif.Spec.Isa
import Verif.Spec.Kallsyms
import Verif.Spec.Kconfig
import Verif.Spec.KconfigMap
import Verif.Spec.KeepAlive
import Verif.Spec.KernelBtf
import Verif.Spec.KernelInfo
import Verif.Spec.LinkInfo
import Verif.Spec.LinkIter
import Verif.Spec.Linker
import Verif.Spec.MakeDeps
import Verif.Spec.MapAttr
import Verif.Spec.MapCreate
import Verif.Spec.MapHandles
import Verif.Spec.MapIter
import Verif.Spec.MapOps
import Verif.Spec.MapSpec
import Verif.Spec.Memory
import Verif.Spec.Mountinfo
import Verif.Spec.OnceCache
import Verif.Spec.OpCode
import Verif.Spec.OpenReader
import Verif.Spec.PerCPU
import Verif.Spec.Perf
import Verif.Spec.PinWalk
import Verif.Spec.Poller
import Verif.Spec.Probe
import Verif.Spec.ProgHandles
import Verif.Spec.ProgLoad
import Verif.Spec.ProgRun
import Verif.Spec.Ringbuf
import Verif.Spec.Sections
import Verif.Spec.SpecCopy
import Verif.Spec.StructOps
import Verif.Spec.Syscall
import Verif.Spec.Targets
import Verif.Spec.Tracefs
import Verif.Spec.TracefsPath
import Verif.Spec.UnsafeMemory
import Verif.Spec.Uprobe
import Verif.Spec.VerifierText
