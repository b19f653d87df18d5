import Verif.Py.Basic
import Verif.Py.Dict
import Verif.Constraints.Model
import Verif.Constraints.Spec
import Verif.Constraints.Lemmas
import Verif.Constraints.Theorems
import Verif.Py.ExceptLemmas
import Verif.Constraints.Theorems2
import Verif.Registry.Model
import Verif.Registry.Theorems
import Verif.Observables.Model
import Verif.Observables.Theorems
import Verif.Citations.Theorems
import Verif.Parse.Brackets
import Verif.Parse.PlusMinus
import Verif.Parse.Limits
import Verif.Parse.AllStrings
import Verif.Measurements.Corr
import Verif.Measurements.Load
import Verif.Probability.Numerical
import Verif.Probability.NumericalTheorems
import Verif.Probability.Dist
import Verif.Probability.Constructors
import Verif.Probability.Integrals
import Verif.Probability.Combine
import Verif.Probability.CombineTheorems
import Verif.Probability.CombineNumerical
import Verif.Probability.LogNormal
import Verif.Probability.Multivariate
import Verif.Probability.MultivariateTheorems
import Verif.Probability.MultivariateTheorems2
import Verif.Probability.Gamma
import Verif.Probability.GammaTheorems
import Verif.Dict.Names
import Verif.Dict.Model
import Verif.Dict.Summary
import Verif.Likelihood.Theorems
import Verif.Likelihood.Session
import Verif.Likelihood.CovarianceTheorems
import Verif.Likelihood.Average
import Verif.Functions.Theorems
import Verif.IO.Theorems
import Verif.IO.YamlTheorems
import Verif.Math.Optimize
import Verif.Math.Statistics
import Verif.Physics.RunningTheorems
import Verif.Physics.Eft
import Verif.Physics.Ckm
import Verif.Physics.Common
import Verif.Plots.Theorems
import Verif.Plots.Colors
import Verif.Physics.Angular.Kinematics
import Verif.Physics.Angular.P
import Verif.Physics.Angular.V
import Verif.Physics.Angular.VSos
import Verif.Physics.Angular.VTheorems
import Verif.Physics.Angular.VObs
import Verif.Physics.Angular.VBounds
import Verif.Physics.Angular.VH
import Verif.Physics.Angular.VHTheorems
import Verif.Physics.Angular.Bins
import Verif.Physics.Mixing.Common
import Verif.Physics.Mixing.Box
import Verif.Physics.Mixing.Amplitude
import Verif.Physics.Mixing.AmplitudeTheorems
import Verif.Physics.Mixing.StandardModel
import Verif.Tighten
import Verif.Physics.Bdecays.Bll
import Verif.Tighten2
import Verif.Physics.Angular.Cache
import Verif.Physics.Angular.BinsP
import Verif.Physics.Angular.Amps
import Verif.Physics.Angular.Nunu
import Verif.Physics.Bdecays.WilsonTot
import Verif.Physics.Bdecays.Plnu
import Verif.Physics.Taudecays.Taulnunu
import Verif.Physics.Taudecays.Widths
import Verif.Physics.Taudecays.ThreeLeptons
import Verif.Physics.Zdecays.Z
import Verif.Physics.Zdecays.ZTheorems
import Verif.Physics.Wdecays.W
import Verif.Parameters.Model
import Verif.Parameters.Theorems
import Verif.Parameters.Correlated
import Verif.Physics.Semilep.P
import Verif.Physics.Semilep.PTheorems
import Verif.Physics.Semilep.V
import Verif.Physics.Semilep.VCont
import Verif.Physics.Semilep.VTheorems
import Verif.Physics.Semilep.VBins
import Verif.Physics.Tighter
import Verif.Physics.Semilep.K
import Verif.Physics.FormFactors.Z
import Verif.Physics.FormFactors.Series
import Verif.Physics.FormFactors.SeriesTheorems
import Verif.Physics.FormFactors.SeriesV
import Verif.Physics.FormFactors.Hqet
import Verif.Physics.FormFactors.HqetMatrix
import Verif.Physics.FormFactors.HqetTheorems
import Verif.Physics.FormFactors.HqetExp
import Verif.Physics.Zdecays.Universal
import Verif.Physics.Lambdab.Bins
import Verif.Physics.L1520.FormFactors
import Verif.Physics.Higgs.Theorems
import Verif.Physics.Beta.Theorems3
import Verif.Physics.Kdecays.Kll
import Verif.Physics.Kdecays.KllTheorems
import Verif.Physics.Kdecays.Kpinunu
import Verif.Physics.Kdecays.KpinunuTheorems
import Verif.Physics.Kdecays.Kpipi
import Verif.Physics.Kdecays.KpipiTheorems
import Verif.Physics.Kdecays.Lambdaplnu
import Verif.Physics.Quarkonium.Vll
import Verif.Physics.Quarkonium.VllTheorems
import Verif.Physics.Quarkonium.Pll
import Verif.Physics.Quarkonium.PllTheorems
import Verif.Physics.Quarkonium.Vllgamma
import Verif.Physics.Quarkonium.VllgammaTheorems
import Verif.Physics.Dipoles.Edm
import Verif.Physics.Dipoles.EdmTheorems
import Verif.Physics.Dipoles.MuE
import Verif.Physics.Dipoles.MuETheorems
import Verif.Physics.Rge.Model
import Verif.Physics.Rge.BetaTheorems
import Verif.Physics.Rge.KsTheorems
import Verif.Physics.Rge.FperpTheorems
import Verif.Physics.Inclusive.Xgamma
import Verif.Physics.Inclusive.XgammaTheorems
import Verif.Physics.Inclusive.XgammaColour
import Verif.Physics.Bvll.Assembly
import Verif.Physics.Bvll.AssemblyTheorems
import Verif.Physics.Bvll.Vgamma
import Verif.Physics.Bvll.VgammaTheorems
import Verif.Physics.Bvll.Lfv
import Verif.Physics.Bvll.LfvTheorems
import Verif.Physics.Inclusive.Xlnu
import Verif.Physics.Inclusive.XlnuFun
import Verif.Physics.Inclusive.XlnuTheorems
import Verif.Physics.Inclusive.XlnuRate
import Verif.Physics.Inclusive.XllQed
import Verif.Physics.Inclusive.XllQedTheorems
import Verif.Physics.Inclusive.Xll
import Verif.Physics.Inclusive.XllTheorems
import Verif.Physics.Inclusive.XllCorr
import Verif.Physics.Inclusive.XllKln
import Verif.Physics.Inclusive.XllEnd
import Verif.Physics.Inclusive.XllAfb
import Verif.Physics.MatrixElements.Model
import Verif.Physics.MatrixElements.Theorems
import Verif.Physics.MatrixElements.Use
import Verif.Physics.FormFactors.SeriesValues
import Verif.Physics.Tighter3
import Verif.Physics.Tighter4
import Verif.Physics.Bllgamma.Model
import Verif.Physics.Bllgamma.Theorems
import Verif.Physics.Bllgamma.Theorems2
import Verif.Physics.Bllgamma.Theorems3
import Verif.Physics.Dileptons.Model
import Verif.Physics.Dileptons.Spec
import Verif.Physics.Dileptons.Ppll
import Verif.Physics.Dileptons.PpllRatio
import Verif.Physics.Dileptons.PpllNp
import Verif.Physics.Dileptons.Pplnu
import Verif.Physics.Dileptons.PplnuRatio
import Verif.Physics.Dileptons.PplnuNp
import Verif.Physics.Dileptons.Partondist
import Verif.Physics.Scattering.EeWW
import Verif.Physics.Scattering.EeWWTheorems
import Verif.Physics.Qcdf.Model
import Verif.Physics.Qcdf.Theorems
import Verif.Physics.Qcdf.Claims
import Verif.Physics.Qcdf.Loop
import Verif.Physics.Qcdf.Interp
import Verif.Dict.Construct
import Verif.Physics.Angular.NunuMore
import Verif.Physics.Zdecays.ZMore
import Verif.Physics.Auxiliary.Model
import Verif.Physics.Auxiliary.Theorems
import Verif.Physics.Auxiliary.Evaluate
import Verif.Physics.Units.Units
import Verif.Plots.Theory
import Verif.Plots.TheoryTheorems
import Verif.Plots.Density
import Verif.Plots.DensityTheorems
import Verif.Plots.Curves
import Verif.Plots.CurvesTheorems
import Verif.Tighten3
import Verif.Parameters.FormFactorsTheorems2
import Verif.Parameters.FormFactorsTheorems5
import Verif.Probability.Grid
import Verif.Probability.GridTheorems
import Verif.Probability.GridTheorems2
import Verif.Probability.GridTheorems3
import Verif.Probability.GridRandom
import Verif.Probability.GridCombine
import Verif.Probability.GridConvolve
import Verif.Probability.GridConvolve2
import Verif.Memo.Model
import Verif.Memo.Theorems
import Verif.Memo.Citations
import Verif.Physics.Rge.Masses
import Verif.Physics.Rge.MassesTheorems
import Verif.Wilson.Model
import Verif.Wilson.Theorems
import Verif.Functions.DependentWcs
import Verif.IO.LikelihoodYaml
import Verif.IO.LikelihoodYamlTheorems
import Verif.IO.LikelihoodYamlTheorems2
import Verif.Plots.Joint
import Verif.Functions.ZeroNP
import Verif.Physics.Quarkonium.Registration
import Verif.Physics.Quarkonium.RegistrationTheorems
import Verif.Math.Integrate
import Verif.Physics.Rge.Wilson
import Verif.Physics.Rge.WilsonTheorems
import Verif.IO.MeasurementFiles
import Verif.IO.MeasurementFilesTheorems
import Verif.Physics.EnergyUnit
import Verif.Physics.AngularUnit
import Verif.Physics.NunuUnit
import Verif.Physics.L1520Unit
import Verif.Physics.BetaUnit
import Verif.Physics.DipoleUnit
import Verif.Physics.QcdfUnit
import Verif.Physics.CpConserving
import Verif.Physics.LfvZero
import Verif.Physics.MixingUnit
import Verif.Physics.ElectroweakUnit
import Verif.Physics.KaonUnit
import Verif.Physics.Kdecays.Radcorr
import Verif.Physics.BaryonUnit
