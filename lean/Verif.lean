import Verif.Model.Finder
import Verif.Props.Indexing
import Verif.Props.Disparity
import Verif.Props.Cuda
import Verif.Props.Penalty
import Verif.Props.Constraint
import Verif.Props.Closure
import Verif.Props.Threshold
import Verif.Props.Labeling
import Verif.Props.Pgm
import Verif.Props.Main
import Verif.Props.Program
import Verif.Props.Parallel
import Verif.Props.Gpu
import Verif.Props.GpuRefuted
import Verif.Props.Greedy
import Verif.Props.Races
import Verif.Props.CommandLine
import Verif.Props.CompileCl
import Verif.Props.CudaLimits
import Verif.Props.Failures
import Verif.Props.Double
import Verif.Props.FloatDevice
import Verif.Props.DoubleRefuted
import Verif.Props.CudaKernel
import Verif.Props.OneRow
import Verif.Props.Contracted
import Verif.Props.NearOptimal
import Verif.Props.NearDevice
import Verif.Props.Perfect
import Verif.Props.CudaFailures
import Verif.Props.Calls
import Verif.Props.Images
import Verif.Props.Ratio
import Verif.Props.Memory
import Verif.Props.ReadErrors
import Verif.Props.Power
import Verif.Props.ExactDevice
import Verif.Props.Troubles
import Verif.Props.Strengthened
import Verif.Props.Rows
import Verif.Props.Endless
import Verif.Props.Files
import Verif.Props.Zeros
import Verif.Props.Levels
import Verif.Props.Neighbors
import Verif.Lemmas.InTurn
import Verif.Props.TwoLevels
import Verif.Props.TwoLevelsDevice
import Verif.Props.Garbage
import Verif.Props.Tradeoff
import Verif.Props.Shift
import Verif.Props.Clear
import Verif.Props.ClearDevice
import Verif.Props.Noise
import Verif.Props.Reliable
import Verif.Tests.Project
