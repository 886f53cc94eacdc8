import Verif.Props.Mesh
import Verif.Props.Heap
import Verif.Props.FMM
import Verif.Props.Shape
import Verif.Props.LevelSet
import Verif.Props.Motion
import Verif.Props.Boundary
import Verif.Props.Normal
import Verif.Props.Sensitivity
import Verif.Props.Optimise
import Verif.Props.Retry
import Verif.Props.Area
import Verif.Props.IO
import Verif.Props.Cheese
import Verif.Props.Random
import Verif.Props.Program
import Verif.Props.Demo
import Verif.Props.Reinit
import Verif.Props.Match
import Verif.Props.Linear
import Verif.Props.Mirror
import Verif.Props.Memory
import Verif.Props.Region
import Verif.Props.Frontier
import Verif.Props.Straight
import Verif.Props.Translate
import Verif.Props.Report
import Verif.Props.Lattice
import Verif.Props.Flip
import Verif.Props.Round
import Verif.Props.RoundArea
import Verif.Props.RoundMove
import Verif.Props.RoundInit
import Verif.Props.DemoFiles
import Verif.Props.Extend
import Verif.Props.ExtendOpt
import Verif.Props.RoundGrad
import Verif.Props.RoundOpt
import Verif.Props.RoundSens
import Verif.Props.RoundVel
import Verif.Props.RoundShape
import Verif.Props.RoundEik
import Verif.Props.RoundNormal
import Verif.Props.RoundNormalDisc
import Verif.Props.RoundNoise
import Verif.Props.RoundPerim
import Verif.Props.RoundWeight
