import Verif.Driver
import Verif.DriverProps
import Verif.Cli
import Verif.CliProps
import Verif.TrimIds
import Verif.TrimIdsProps
import Verif.Path
import Verif.PathProps
import Verif.RoundProps
import Verif.Dom
import Verif.DomLemmas
import Verif.DomSpec
import Verif.Simple
import Verif.SimpleProps
import Verif.IdsProps
import Verif.FinalProps
import Verif.Stops
import Verif.StopsProps
import Verif.ConvShapes
import Verif.ConvShapesProps
import Verif.Gradients
import Verif.GradientSpec
import Verif.GradientsProps
import Verif.ApplyTs
import Verif.ApplyTsProps
import Verif.ApplyGradTs
import Verif.PreprocProps
import Verif.DomMore
import Verif.GradUnits
import Verif.GradUnitsProps
import Verif.GenId
import Verif.UnusedDefs
import Verif.Inherit
import Verif.DefaultAttrs
import Verif.Needless
import Verif.TextAttrs
import Verif.Render
import Verif.RenderLemmas
import Verif.Ungroup
import Verif.UngroupProps
import Verif.UngroupLook
import Verif.UngroupCases
import Verif.GroupStyle
import Verif.GroupTable
import Verif.GroupStyleProps
import Verif.GroupStyleLook
import Verif.GroupStyleCases
import Verif.RenderDepth
import Verif.RenderDrop
import Verif.Invisible
import Verif.InvisibleProps
import Verif.ResolveUse
import Verif.ResolveUseProps
import Verif.ResolveUseLook
import Verif.ResolveUseCases
import Verif.InvisibleServers
import Verif.InvisibleCases
import Verif.RenderPaint
import Verif.InvisibleGradients
import Verif.UnusedDefsLook
import Verif.InvisibleWhole
import Verif.GroupDefs
import Verif.GroupDefsProps
import Verif.GroupDefsWhole
import Verif.GroupDefsCases
import Verif.RenderMove
import Verif.GroupDefsLook
import Verif.GroupDefsGive
import Verif.GroupDefsStep
import Verif.GroupDefsView
import Verif.GroupDefsPicture
import Verif.GroupDefsPort
import Verif.GradPaint
import Verif.GradCheck
import Verif.Merge
import Verif.MergeProps
import Verif.MergePaint
import Verif.MergeWhole
import Verif.MergeCases
import Verif.DuplStops
import Verif.Regroup
import Verif.RegroupProps
import Verif.RegroupSteps
import Verif.RegroupWhole
import Verif.RegroupResolve
import Verif.RegroupCases
import Verif.Dupl
import Verif.DuplSpec
import Verif.DuplStep
import Verif.DuplVal
import Verif.DuplProps
import Verif.DuplWhole
import Verif.DuplBlur
import Verif.DuplCases
import Verif.SafeUngroup
import Verif.SafeInvisible
import Verif.SafeMoves
import Verif.SafeGroup
import Verif.SafeFinal
import Verif.RoundDocProps
import Verif.Pipeline
import Verif.PipelineProps
import Verif.PipelineOff
import Verif.PipelineOpts
import Verif.PipelineCases
import Verif.PipelineCrash
import Verif.PipelineEnds
import Verif.PipelineEffect
import Verif.RenderMeta
import Verif.FileOnly
import Verif.CrashSpec
import Verif.CrashInv
import Verif.CrashNodes
import Verif.CrashTree
import Verif.CrashGrad
import Verif.CrashUngroup
import Verif.CrashMerge
import Verif.CrashRegroup
import Verif.CrashUnits
import Verif.CrashUse
import Verif.CrashEnd
import Verif.CrashRound
import Verif.CrashResolve
import Verif.CrashStops
import Verif.CrashGroup
import Verif.CrashPrep
import Verif.CrashAll
import Verif.CrashCases
import Verif.Program
import Verif.ProgramProps
import Verif.ProgramMsgs
import Verif.CliChoice
import Verif.Sketch
import Verif.SketchCut
import Verif.SketchView
import Verif.SketchDefs
import Verif.SketchUngroup
import Verif.SketchStyle
import Verif.SketchRun
import Verif.SketchCases
import Verif.RepoTest
import Verif.RepoTestsA
import Verif.RepoTestsB
import Verif.RepoTestsC
import Verif.RepoTestsD
import Verif.IdemProps
import Verif.IdemGrad
import Verif.IdemInherit
import Verif.IdemStops
import Verif.IdemResolve
import Verif.IdemRefuted
import Verif.IdemGroup
import Verif.IdemUnits
import Verif.ProgramDraws
import Verif.PlotCases
import Verif.ZoomCases
import Verif.ReaderCases
import Verif.WholeRun
import Verif.WholeCases
import Verif.WholeCheck
import Verif.WholeInput
import Verif.ShadeProps
import Verif.ShadePages
import Verif.ShadePasses
import Verif.ShadeUnits
import Verif.ShadeMove
import Verif.ShadeFuse
import Verif.ShadeMerge
import Verif.ShadeRegroup
import Verif.ShadeCases
import Verif.ShadeChain
import Verif.ShadeApply
import Verif.ShadeChainCases
import Verif.ShadeUnitsLast
import Verif.ShadeAll
