import Verif.Core
import Verif.Str
import Verif.AMap
import Verif.NameCore
import Verif.KnownTypes
import Verif.KnownTypesLit
import Verif.KnownTypesProps
import Verif.Names
import Verif.NamesProps
import Verif.ApiVec
import Verif.ApiVecProps
import Verif.Util
import Verif.Config
import Verif.ConfigProps
import Verif.Deps
import Verif.Gc
import Verif.GcProps
import Verif.RemoveIgnored
import Verif.RemoveIgnoredProps
import Verif.DepthFirst
import Verif.DepthFirstProps
import Verif.NameCheck
import Verif.NameCheckProps
import Verif.Dec
import Verif.Trackers
import Verif.TrackersProps
import Verif.ConfigParse
import Verif.ConfigParseProps
import Verif.SubclassAttrsProps
import Verif.ByValue
import Verif.ByValueProps
import Verif.ByValueMore
import Verif.Abstract
import Verif.AbstractProps
import Verif.Implicit
import Verif.ImplicitProps
import Verif.ImplicitSound
import Verif.TypeToCpp
import Verif.TypeConv
import Verif.DecideKnown
import Verif.TypedefProps
import Verif.TemplateNameProps
import Verif.TypeConvProps
import Verif.TypeConvMore
import Verif.Passes
import Verif.PassSpec
import Verif.TypedefPassProps
import Verif.PodPassProps
import Verif.PodPassMore
import Verif.SmallPassProps
import Verif.AllocProps
import Verif.Policy
import Verif.PolicyProps
import Verif.FnAnalyze
import Verif.FnPass
import Verif.FnInv
import Verif.FnProps
import Verif.FnExposedProps
import Verif.FnParamProps
import Verif.FnRefProps
import Verif.FnKindProps
import Verif.FnDepProps
import Verif.FnExamples
import Verif.FnStateProps
import Verif.FnPassProps
import Verif.FnPassExamples
import Verif.FnMoreProps
import Verif.FnMoreExamples
import Verif.CppGen
import Verif.CppGenProps
import Verif.CppWrapProps
import Verif.CppSubProps
import Verif.CppGenExamples
import Verif.CppNeedsProps
import Verif.CppTotalProps
import Verif.CppMadeProps
import Verif.CppMadeExamples
import Verif.HelperNameProps
import Verif.HelperNameExamples
import Verif.CppNeedsExamples
import Verif.OutFiles
import Verif.OutFilesProps
import Verif.OutNamesProps
import Verif.ParseFile
import Verif.ParseFileProps
import Verif.Locations
import Verif.LocationsProps
import Verif.NsTree
import Verif.NsTreeProps
import Verif.RsBody
import Verif.RsBodyProps
import Verif.RsFn
import Verif.RsCallProps
import Verif.RsFnProps
import Verif.RsFnExamples
import Verif.RsTypeProps
import Verif.LifetimeProps
import Verif.LifetimeExamples
import Verif.ValueParam
import Verif.ValueParamProps
import Verif.SubclassPeers
import Verif.SubclassPeersProps
import Verif.Callbacks
import Verif.CallbacksProps
import Verif.ParseBindgen
import Verif.ParseBindgenProps
import Verif.ParseItemsProps
import Verif.ParseWitness
import Verif.Pipeline
import Verif.PipelineProps
import Verif.PipelineFnProps
import Verif.DecideRun
import Verif.PipelineExamples
import Verif.Discover
import Verif.DiscoverProps
import Verif.DiscoverFileProps
import Verif.RsGen
import Verif.RsGenProps
import Verif.RsDeclProps
import Verif.RsPipeProps
import Verif.RsGenExamples
import Verif.RsSigProps
import Verif.RsSigExamples
import Verif.RsUnsafeProps
import Verif.RsSubProps
import Verif.RsSubExamples
import Verif.ExternFunProps
import Verif.ConvertErrProps
import Verif.ExternTypeProps
import Verif.ExternFunExamples
import Verif.RsVisibleProps
import Verif.RsVisibleExamples
import Verif.SubFnProps
import Verif.SubFnExamples
import Verif.ConvPanicProps
import Verif.ConvAgainProps
import Verif.ConvPanicExamples
import Verif.FnPanicProps
import Verif.FnTotalProps
import Verif.FnPassTotalProps
import Verif.FnPassTotalExamples
import Verif.AnalysisTotalProps
import Verif.FrontTotalProps
import Verif.FrontTotalExamples
import Verif.TightProps
import Verif.TightExamples
import Verif.BindTotalProps
import Verif.RsTotalProps
import Verif.CppSafeProps
import Verif.CppRunProps
import Verif.CppRunExamples
import Verif.ParseGoodProps
import Verif.ParseGoodExamples
import Verif.HoldProps
import Verif.HoldExamples
import Verif.CppRefs
import Verif.CppRefsProps
import Verif.SubclassMacro
import Verif.SubclassMacroProps
import Verif.FnNamesProps
import Verif.RsNamesProps
import Verif.RsNamesExamples
import Verif.RsSubNamesProps
import Verif.RsSubNamesExamples
import Verif.DirectiveExamples
import Verif.TraitMethodProps
import Verif.TraitMethodExamples
import Verif.TraitRunProps
import Verif.TraitRunExamples
import Verif.VectorExamples
