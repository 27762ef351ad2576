import Verif.Basic
import Verif.Breakpad.ErrorLemmas
import Verif.Breakpad.ErrorProps
import Verif.Breakpad.ErrorSpec
import Verif.Breakpad.ErrorText
import Verif.Breakpad.InlineLemmas
import Verif.Breakpad.InlineProps
import Verif.Breakpad.LineLemmas
import Verif.Breakpad.LookupLemmas
import Verif.Breakpad.LookupProps
import Verif.Breakpad.NameProps
import Verif.Breakpad.Nom
import Verif.Breakpad.ParseLemmas
import Verif.Breakpad.Parser
import Verif.Breakpad.ParserLemmas
import Verif.Breakpad.ParserProps
import Verif.Breakpad.RecordLemmas
import Verif.Breakpad.Resolver
import Verif.Breakpad.Spec
import Verif.Breakpad.Types
import Verif.CApi.Abi
import Verif.CApi.AbiLemmas
import Verif.CApi.AbiProps
import Verif.CApi.AbiSpec
import Verif.CApi.Call
import Verif.CApi.CallProps
import Verif.CApi.CallSpec
import Verif.CApi.Codes
import Verif.CApi.CodesProps
import Verif.CApi.CodesSpec
import Verif.CApi.Convert
import Verif.CApi.ConvertLemmas
import Verif.CApi.ConvertProps
import Verif.CApi.ConvertSpec
import Verif.CApi.Dispatch
import Verif.CApi.DispatchProps
import Verif.CApi.DispatchSpec
import Verif.CApi.Host
import Verif.CApi.HostLemmas
import Verif.CApi.HostSpec
import Verif.CApi.Input
import Verif.CApi.InputProps
import Verif.CApi.InputSpec
import Verif.CApi.InspProgram
import Verif.CApi.InspProgramLemmas
import Verif.CApi.InspProgramProps
import Verif.CApi.InspProgramSpec
import Verif.CApi.Inspect
import Verif.CApi.InspectProps
import Verif.CApi.InspectSpec
import Verif.CApi.Memory
import Verif.CApi.NormProgram
import Verif.CApi.NormProgramLemmas
import Verif.CApi.NormProgramProps
import Verif.CApi.NormProgramSpec
import Verif.CApi.Output
import Verif.CApi.OutputLemmas
import Verif.CApi.OutputProps
import Verif.CApi.OutputSpec
import Verif.CApi.Program
import Verif.CApi.ProgramLemmas
import Verif.CApi.ProgramProps
import Verif.CApi.ProgramSpec
import Verif.CApi.Trace
import Verif.CApi.TraceProps
import Verif.CApi.TraceSpec
import Verif.CApi.Whole
import Verif.CApi.WholeLemmas
import Verif.CApi.WholeProps
import Verif.CApi.WholeSpec
import Verif.CApi.WholeTripProps
import Verif.CApi.WholeTripSpec
import Verif.Cache.ElfCache
import Verif.Cache.ElfCacheProps
import Verif.Cache.FileCache
import Verif.Cache.FileCacheLemmas
import Verif.Cache.FileCacheProps
import Verif.Cache.FileCacheSpec
import Verif.Cache.InsertMap
import Verif.Cache.InsertMapLemmas
import Verif.Cache.InsertMapProps
import Verif.Cli.Args
import Verif.Cli.FileProps
import Verif.Cli.FileSpec
import Verif.Cli.ListLemmas
import Verif.Cli.LookupProps
import Verif.Cli.Main
import Verif.Cli.MainSpec
import Verif.Cli.Props
import Verif.Cli.ReadLemmas
import Verif.Cli.ReadSpec
import Verif.Cli.SymbolFileProps
import Verif.Cli.Trace
import Verif.Cli.TraceProps
import Verif.Cli.TraceSpec
import Verif.Dwarf.CodeLemmas
import Verif.Dwarf.CodeSpec
import Verif.Dwarf.Data
import Verif.Dwarf.DebugLink
import Verif.Dwarf.DebugLinkProps
import Verif.Dwarf.DebugLinkSpec
import Verif.Dwarf.DemangleProps
import Verif.Dwarf.Function
import Verif.Dwarf.FunctionLemmas
import Verif.Dwarf.FunctionProps
import Verif.Dwarf.FunctionSpec
import Verif.Dwarf.InlineLemmas
import Verif.Dwarf.InlineProps
import Verif.Dwarf.InlineSpec
import Verif.Dwarf.Interval
import Verif.Dwarf.LanguageLemmas
import Verif.Dwarf.Lazy
import Verif.Dwarf.LazyLemmas
import Verif.Dwarf.LazyProps
import Verif.Dwarf.LazySpec
import Verif.Dwarf.Lines
import Verif.Dwarf.LinesLemmas
import Verif.Dwarf.LinesProps
import Verif.Dwarf.LinesSpec
import Verif.Dwarf.NameProps
import Verif.Dwarf.NamesLemmas
import Verif.Dwarf.NamesSpec
import Verif.Dwarf.Open
import Verif.Dwarf.OpenProps
import Verif.Dwarf.Reader
import Verif.Dwarf.ReaderProps
import Verif.Dwarf.Resolver
import Verif.Dwarf.ResolverLemmas
import Verif.Dwarf.ResolverProps
import Verif.Dwarf.ResolverSpec
import Verif.Dwarf.TotalExamples
import Verif.Dwarf.TotalProps
import Verif.Dwarf.TotalSpec
import Verif.Dwarf.Units
import Verif.Dwarf.UnitsLemmas
import Verif.Dwarf.UnitsProps
import Verif.Dwarf.UnitsSpec
import Verif.Elf.Image
import Verif.Elf.ImageLemmas
import Verif.Elf.ImageProps
import Verif.Elf.ImageSpec
import Verif.Elf.Lazy
import Verif.Elf.LazyLemmas
import Verif.Elf.LazyProps
import Verif.Elf.LazySpec
import Verif.Elf.NameLemmas
import Verif.Elf.NameProps
import Verif.Elf.NameSpec
import Verif.Elf.Notes
import Verif.Elf.NotesProps
import Verif.Elf.NotesSpec
import Verif.Elf.OffsetProps
import Verif.Elf.Place
import Verif.Elf.Reloc
import Verif.Elf.RelocProps
import Verif.Elf.RelocSpec
import Verif.Elf.SectionProps
import Verif.Elf.Symtab
import Verif.Elf.SymtabLemmas
import Verif.Elf.SymtabProps
import Verif.Elf.SymtabSpec
import Verif.Elf.Types
import Verif.Error.Error
import Verif.Error.ErrorProps
import Verif.Error.ErrorSpec
import Verif.Extent.Lemmas
import Verif.Extent.Props
import Verif.Extent.Spec
import Verif.Go.Bindings
import Verif.Go.BindingsLemmas
import Verif.Go.BindingsProps
import Verif.Go.BindingsSpec
import Verif.Go.OptionsLemmas
import Verif.Go.Program
import Verif.Go.ProgramLemmas
import Verif.Go.ProgramProps
import Verif.Go.ProgramSpec
import Verif.Gsym.CodeLemmas
import Verif.Gsym.CodeProps
import Verif.Gsym.CodeSpec
import Verif.Gsym.DataLemmas
import Verif.Gsym.DataProps
import Verif.Gsym.DataSpec
import Verif.Gsym.Inline
import Verif.Gsym.InlineLemmas
import Verif.Gsym.InlineProps
import Verif.Gsym.InlineRobust
import Verif.Gsym.InlineSpec
import Verif.Gsym.LineLemmas
import Verif.Gsym.LineProps
import Verif.Gsym.LineSpec
import Verif.Gsym.LineTab
import Verif.Gsym.LookupProps
import Verif.Gsym.Parser
import Verif.Gsym.ParserLemmas
import Verif.Gsym.Resolver
import Verif.Gsym.Spec
import Verif.Kernel.Bpf
import Verif.Kernel.BpfProps
import Verif.Kernel.BpfSpec
import Verif.Kernel.BpfSys
import Verif.Kernel.BpfSysLemmas
import Verif.Kernel.BpfSysProps
import Verif.Kernel.BpfSysSpec
import Verif.Kernel.Depmod
import Verif.Kernel.DepmodLemmas
import Verif.Kernel.DepmodProps
import Verif.Kernel.DepmodSpec
import Verif.Kernel.Kaslr
import Verif.Kernel.KaslrLemmas
import Verif.Kernel.KaslrProps
import Verif.Kernel.KaslrSpec
import Verif.Kernel.Ksym
import Verif.Kernel.KsymProps
import Verif.Kernel.KsymSpec
import Verif.Kernel.ModMap
import Verif.Kernel.ModMapProps
import Verif.Kernel.Resolver
import Verif.Kernel.ResolverProps
import Verif.Kernel.System
import Verif.Listing.Props
import Verif.Listing.Spec
import Verif.Maps.Maps
import Verif.Maps.MapsLemmas
import Verif.Maps.MapsProps
import Verif.Maps.MapsSpec
import Verif.Normalize.SourceProps
import Verif.Normalize.User
import Verif.Normalize.UserLemmas
import Verif.Normalize.UserProps
import Verif.Normalize.UserSpec
import Verif.Normalize.Walk
import Verif.Normalize.WalkLemmas
import Verif.Normalize.WalkProps
import Verif.Normalize.WalkSpec
import Verif.Opened.Lemmas
import Verif.Opened.Model
import Verif.Opened.Props
import Verif.Opened.Spec
import Verif.Options.KernelProps
import Verif.Options.Lemmas
import Verif.Options.Props
import Verif.Options.Resolvers
import Verif.Options.Spec
import Verif.PerfMap.PerfMap
import Verif.PerfMap.Props
import Verif.Places.Props
import Verif.Places.Spec
import Verif.Session.Act
import Verif.Session.AnswerProps
import Verif.Session.AnswerSpec
import Verif.Session.BreakpadAnswerProps
import Verif.Session.BreakpadAnswerSpec
import Verif.Session.DebugAnswerProps
import Verif.Session.ElfLemmas
import Verif.Session.GsymAnswerProps
import Verif.Session.GsymAnswerSpec
import Verif.Session.HistoryLemmas
import Verif.Session.Inspector
import Verif.Session.InspectorProps
import Verif.Session.InspectorSpec
import Verif.Session.InvariantLemmas
import Verif.Session.Kernel
import Verif.Session.KernelAnswerProps
import Verif.Session.KernelAnswerSpec
import Verif.Session.KernelDebugProps
import Verif.Session.KernelDebugSpec
import Verif.Session.KernelHistory
import Verif.Session.KernelInvariant
import Verif.Session.KernelLemmas
import Verif.Session.KernelProps
import Verif.Session.KernelSpec
import Verif.Session.LookupSpec
import Verif.Session.NameAnswerProps
import Verif.Session.NameAnswerSpec
import Verif.Session.Normalizer
import Verif.Session.NormalizerLemmas
import Verif.Session.NormalizerProps
import Verif.Session.NormalizerSpec
import Verif.Session.PreserveLemmas
import Verif.Session.Resolve
import Verif.Session.ResolveLemmas
import Verif.Session.RoundTripProps
import Verif.Session.RoundTripSpec
import Verif.Session.ShapeProps
import Verif.Session.SimLemmas
import Verif.Session.Spec
import Verif.Session.State
import Verif.Session.StateLemmas
import Verif.Session.StateProps
import Verif.Session.StateSpec
import Verif.Session.SymbolFileHistoryProps
import Verif.Session.Symbolize
import Verif.Session.VersionProps
import Verif.Symbolize.Convert
import Verif.Symbolize.ProcessOnlyProps
import Verif.Symbolize.ProcessProps
import Verif.Symbolize.Symbolizer
import Verif.Symbolize.SymbolizerProps
import Verif.Symbolize.SymbolizerSpec
import Verif.Symbolize.Types
import Verif.TwoWay.FileProps
import Verif.TwoWay.Props
import Verif.TwoWay.Spec
import Verif.Util.Bytes
import Verif.Util.BytesSpec
import Verif.Util.Extension
import Verif.Util.Format
import Verif.Util.FormatLemmas
import Verif.Util.InsertSorter
import Verif.Util.Join
import Verif.Util.Layout
import Verif.Util.LayoutLemmas
import Verif.Util.LayoutSpec
import Verif.Util.LebLemmas
import Verif.Util.Mmap
import Verif.Util.MmapProps
import Verif.Util.Path
import Verif.Util.PathOps
import Verif.Util.PathOpsProps
import Verif.Util.PathProps
import Verif.Util.PathSpec
import Verif.Util.Reader
import Verif.Util.ReaderLemmas
import Verif.Util.ReaderProps
import Verif.Util.ReaderSpec
import Verif.Util.Reorder
import Verif.Util.ReorderLemmas
import Verif.Util.ReorderProps
import Verif.Util.Search
import Verif.Util.SearchLemmas
import Verif.Util.SearchProps
import Verif.Util.SearchSpec
import Verif.Util.Sort
import Verif.Util.StableSort
import Verif.Util.Text
import Verif.Util.TextLemmas
import Verif.Util.TextSpec
import Verif.Zip.ApkCache
import Verif.Zip.ApkCacheProps
import Verif.Zip.Archive
import Verif.Zip.Props
import Verif.Zip.Spec
