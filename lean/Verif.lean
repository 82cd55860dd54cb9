import Verif.Fl
import Verif.Props.Species
import Verif.Props.PlasmaData
import Verif.Props.Vector
import Verif.PlasmaPhys
import Verif.Props.PlasmaThermo
import Verif.Props.PlasmaFlow
import Verif.Props.PlasmaKinetic
import Verif.Props.Spacecraft
import Verif.Props.Units
import Verif.Props.Turbulence
import Verif.Props.FitCore
import Verif.Props.TrendFit
import Verif.Props.FitFuncs
import Verif.Props.FitFuncs2
import Verif.Props.TexInfo
import Verif.Props.Tools
import Verif.Props.Instability
import Verif.Props.ActivityCache
import Verif.Props.Activity
import Verif.Props.Icme
import Verif.Props.Hist
import Verif.Props.Hist2
import Verif.Props.Spiral
import Verif.Props.PlotTools
import Verif.Props.Labels
import Verif.Props.Labels2
import Verif.Props.PlotState
import Verif.Props.PlotState2
import Verif.Props.FFPlot
import Verif.Props.FitCov
import Verif.Props.Imports
import Verif.Props.TexNum
import Verif.Props.LogNormal
import Verif.Props.FitGuess
import Verif.Props.Orbit
import Verif.Props.Tight
import Verif.Props.Scripts
import Verif.Props.Scripts2
import Verif.Props.Scripts3
import Verif.Props.Scripts4
import Verif.Props.HistPlot
import Verif.Props.Sidc
import Verif.Props.SaveSel
import Verif.Props.SpiralAgg
import Verif.Props.FitRun
import Verif.FitReport
import Verif.Products
import Verif.Props.FitReport
import Verif.Props.Products
import Verif.Props.FlSpec
import Verif.Props.TurbPlasma
import Verif.ConstTab
import Verif.Props.ConstTab
import Verif.Props.IonPhys
import Verif.LabelTex
import Verif.Props.LabelTex
import Verif.Props.LabelTex2
import Verif.Props.LabelTex3
import Verif.Labels3
import Verif.Props.Labels3
import Verif.LabelGraph
import Verif.Props.LabelGraph
import Verif.Props.Frames
import Verif.Props.Scaling
import Verif.PlasmaObj
import Verif.Props.PlasmaObj
import Verif.Extrema
import Verif.Props.Extrema
import Verif.AbundanceTable
import Verif.SsnTable
import Verif.Props.SsnTable
import Verif.Abundances
import Verif.Props.Abundances
import Verif.TexFull
import Verif.Props.TexFull
import Verif.Props.TexModes
import Verif.Formulas
import Verif.Props.Formulas
import Verif.Repro
import Verif.Props.Repro
import Verif.Props.TurbMoves
import Verif.TurbAlign
import Verif.Props.TurbAlign
import Verif.Props.InstaNested
import Verif.Props.InstaColours
import Verif.Props.FitUnits
import Verif.Props.FitShift
import Verif.Props.FitOrder
import Verif.HistIndex
import Verif.Props.HistIndex
import Verif.Containers
import Verif.Props.Containers
import Verif.Props.Split
import Verif.LabelList
import Verif.Props.LabelList
import Verif.Indices
import Verif.Props.Indices
import Verif.Props.HistJoin
import Verif.Plans
import Verif.Props.Plans
import Verif.SpacecraftData
import Verif.Props.SpacecraftData
import Verif.Recipe
import Verif.Props.Recipe
import Verif.DocScripts
import Verif.Props.DocScripts
import Verif.Rounded
import Verif.Props.RoundFmt
import Verif.Props.Rounded
import Verif.RoundMesh
import Verif.Props.RoundMesh
import Verif.RoundPhys
import Verif.Props.RoundPhys
import Verif.Props.RoundFlow
import Verif.RoundHist
import Verif.Props.RoundHist
import Verif.RoundFit
import Verif.Props.RoundFit
import Verif.HistEdges
import Verif.Props.HistEdges
import Verif.DrawOpts
import Verif.Props.DrawOpts
import Verif.FFDraw
import Verif.Props.FFDraw
import Verif.Contours
import Verif.Props.Contours
import Verif.JointDraw
import Verif.Props.JointDraw
import Verif.RoundFit2
import Verif.Props.RoundFit2
import Verif.HistContours
import Verif.Props.HistContours
import Verif.Props.DocTree3
import Verif.RoundPhys2
import Verif.Props.RoundPhys2
import Verif.SpiralStats
import Verif.Props.SpiralStats
import Verif.RoundInsta
import Verif.Props.RoundInsta
import Verif.RoundColl
import Verif.Props.RoundColl
import Verif.RoundElec
import Verif.Props.RoundElec
import Verif.RoundProj
import Verif.Props.RoundProj
import Verif.Props.RoundVdf
import Verif.ImportTest
import Verif.Props.ImportTest
import Verif.ConfScripts
import Verif.Props.ConfScripts
import Verif.DocCount
import Verif.Props.DocCount
