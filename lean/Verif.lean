import Verif.Utils.Props
import Verif.Mesh.DecompProps
import Verif.Mesh.NestProps
import Verif.Mesh.OverlapProps
import Verif.Par.DbProps
import Verif.Par.Grammar
import Verif.Run.RestartProps
import Verif.Run.MainProps
import Verif.Run.CflProps
import Verif.Run.StsProps
import Verif.Run.Setup
import Verif.Run.RestartFileProps
import Verif.Bvals.Props
import Verif.Bvals.Phi
import Verif.Hydro.StateProps
import Verif.Hydro.RsolveProps
import Verif.Hydro.HllcProps
import Verif.Hydro.RoeProps2
import Verif.Hydro.HlldIsoMirror
import Verif.Mesh.Pos
import Verif.Io.Baton
import Verif.Utils.Arr
import Verif.Io.Log
import Verif.Io.DumpNames
import Verif.Io.Slice
import Verif.Utils.VecPot
import Verif.Utils.LuProps
import Verif.Integr.Vl3Ex
import Verif.Recon.Ex
import Verif.Smr.ProProps
import Verif.Smr.FldProps
import Verif.Smr.Wait
import Verif.Smr.RLemmas
import Verif.Smr.RSpec
import Verif.Smr.RMsg
import Verif.Smr.RFld
import Verif.Smr.REmf
import Verif.Smr.REmfC
import Verif.Smr.REmfC2
import Verif.Smr.REmfC3
import Verif.Smr.RAll
import Verif.Smr.RSum
import Verif.Smr.RProps
import Verif.Smr.RKeep
import Verif.Smr.RDiv
import Verif.Smr.RDiv2
import Verif.Smr.RDiv3
import Verif.Smr.REx
import Verif.Integr.Gen
import Verif.Integr.GenCons
import Verif.Integr.Funs
import Verif.Integr.D1
import Verif.Integr.D2
import Verif.Integr.D2c
import Verif.Integr.D3
import Verif.Integr.D3c
import Verif.Integr.All
import Verif.Integr.Ex
import Verif.Integr.Step
import Verif.Integr.Link
import Verif.Integr.Rot
import Verif.Recon.Props4
import Verif.Recon.MhdEsys
import Verif.Integr.Sym
import Verif.Integr.RotRun
import Verif.Integr.Mirror
import Verif.Integr.Mirror2
import Verif.Integr.MirrorRun
import Verif.Integr.MirrorEx
import Verif.Integr.Wall
import Verif.Par.Float
import Verif.Hydro.ExactIsoProps
import Verif.Hydro.ExactEx
import Verif.Micro.Conduct
import Verif.Micro.ConductProps
import Verif.Micro.ConductEx
import Verif.Micro.ConductLin
import Verif.Micro.Visc
import Verif.Micro.ViscProps
import Verif.Integr.GenLat
import Verif.Micro.Resist
import Verif.Micro.Decay
import Verif.Micro.ResistProps
import Verif.Micro.AmbiFalse
import Verif.Micro.ResistLin
import Verif.Micro.ResistRestart
import Verif.Micro.Diffuse
import Verif.Micro.DiffuseRun
import Verif.Grav.Dft
import Verif.Grav.Model
import Verif.Grav.Solve
import Verif.Grav.Cons
import Verif.Grav.Zone
import Verif.Grav.Poisson
import Verif.Grav.Parallel
import Verif.Grav.Ghosts
import Verif.Grav.Props
import Verif.Grav.Ex
import Verif.Integr.Flat
import Verif.Integr.FlatC
import Verif.Integr.Flat1
import Verif.Integr.FlatRun
import Verif.Integr.FlatEx
import Verif.Integr.Uniform
import Verif.Micro.UniformDiff
import Verif.Io.Tab
import Verif.Io.Hist
import Verif.Part.Drag
import Verif.Part.Grain
import Verif.Part.History
import Verif.Part.Weight
import Verif.Part.Sort
import Verif.Part.Bvals
import Verif.Part.BvalsProps
import Verif.Part.BvalsEx
import Verif.Part.Exch
import Verif.Part.ExchProps
import Verif.Part.ExchGhost
import Verif.Part.Bin
import Verif.Part.Units
import Verif.Shear.Remap
import Verif.Shear.Sheet
import Verif.Shear.State
import Verif.Shear.Flux
import Verif.Shear.Ex
import Verif.Shear.Refute
import Verif.Shear.Fargo
import Verif.Shear.FargoBox
import Verif.Shear.FargoEx
import Verif.Shear.Roll
import Verif.Fofc.Fix3Zone
import Verif.Fofc.Fix2False
import Verif.Join.Ex
import Verif.Cyl.Ex
import Verif.Cyl.Ctu3Flat
import Verif.Cyl.Alloc
import Verif.Static.Pot
import Verif.Cyl.Stress
import Verif.Join.Refuse
import Verif.Join.Lis
import Verif.Join.Bin
import Verif.Io.PdfProps
import Verif.Io.ImageProps
import Verif.Micro.CoolProps
import Verif.Rel.HydroProps
import Verif.Rel.MhdProps
import Verif.Rel.HllcStep
import Verif.Rel.FixProps
import Verif.Rel.HlleRoots
import Verif.Rel.HlleEdges
import Verif.Recon.Mirror
import Verif.Recon.MirrorLr
import Verif.Recon.MirrorEs
import Verif.Hydro.HlleMirror
import Verif.Integr.Code
import Verif.Integr.CodeProps
import Verif.Integr.CodeRuns
import Verif.Fft.Fft3dDft
import Verif.Fft.Fft2d
import Verif.Fft.Fft2dProps
import Verif.Mg.Props
import Verif.Smr.ProlongDiv
import Verif.Grav.DiskMore
import Verif.Mg.Mono
import Verif.Hydro.HllePos
import Verif.Integr.Positive
import Verif.Smr.Prolong1
import Verif.Shear.SourceGrid
import Verif.Prob.Cases
import Verif.Prob.Ran2
import Verif.Prob.Shk2d
import Verif.Recon.Scale
import Verif.Recon.ScaleLr
import Verif.Recon.ScaleEs
import Verif.Hydro.Units
import Verif.Integr.Scale
import Verif.Integr.ScaleRun
import Verif.Integr.ScaleCode
import Verif.Integr.ScaleEx
import Verif.Run.CflUnits
import Verif.Run.CodeUnits
import Verif.Shear.Resist
import Verif.Prob.Jet
import Verif.Prob.Dmr
import Verif.Prob.Noh
import Verif.Prob.ShkCloud
import Verif.Prob.Carbuncle
import Verif.Prob.Shk1d
import Verif.Prob.Rj2a
import Verif.Prob.Implode
import Verif.Prob.Pgflow
import Verif.Prob.Rotor
import Verif.Prob.Sheet
import Verif.Prob.Rayleigh
