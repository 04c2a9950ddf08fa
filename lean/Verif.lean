import Verif.Props.CM
import Verif.Props.ECM
import Verif.Props.DCM
import Verif.Props.DECM
import Verif.Props.CReMa
import Verif.Props.DCReMa
import Verif.Props.LineSearch
import Verif.Props.Solver
import Verif.Props.Regulariser
import Verif.Props.Concave
import Verif.Props.Motif
import Verif.Props.Ensemble
import Verif.Props.Network
import Verif.Props.Sampler
import Verif.Props.SamplerLaw
import Verif.Props.Graph
import Verif.Props.GraphWeighted
import Verif.Props.SolveU5
import Verif.Props.Guess
import Verif.Props.Matgen2
import Verif.Props.SolveU6
import Verif.Props.SolveD6
import Verif.Props.Parallel
import Verif.Props.Runs
import Verif.Props.Runs2
import Verif.Spec.Likelihood
import Verif.Lemmas.Likelihood
import Verif.Lemmas.GraphLaw
import Verif.Props.Likelihood
import Verif.Props.Likelihood2
import Verif.Props.MaxEntropy
import Verif.Props.MaxLikelihood
import Verif.Props.MaxEntropy2
import Verif.Props.MaxEntropy3
import Verif.Props.GraphIndex
import Verif.Props.GraphSparse
import Verif.Props.LawExamples
import Verif.Spec.EndToEnd
import Verif.Props.EndToEnd
import Verif.Props.Guess2
import Verif.Spec.Reports
import Verif.Props.Reports
import Verif.Props.Reports2
import Verif.Props.Continue
import Verif.Props.Continue2
import Verif.Props.Stricter
import Verif.Model.Exp2
import Verif.Props.Exp2
import Verif.Spec.NetworkLaw
import Verif.Props.SamplerLaw2
import Verif.Props.Relabel
import Verif.Lemmas.Relabel
import Verif.Props.Relabel2
import Verif.Props.Relabel3
import Verif.Props.Relabel4
import Verif.Props.Relabel5
import Verif.Props.Psd
import Verif.Props.Monotone
import Verif.Props.Memory
import Verif.Props.Order
import Verif.Props.Agree
import Verif.Lemmas.Converge
import Verif.Spec.Converge
import Verif.Props.Converge
import Verif.Lemmas.FixedPoint
import Verif.Lemmas.FixedRun
import Verif.Spec.FixedPoint
import Verif.Lemmas.FixedModels
import Verif.Props.FixedPoint
import Verif.Lemmas.Existence
import Verif.Spec.Existence
import Verif.Props.Existence
import Verif.Lemmas.Existence2
import Verif.Spec.ExistenceW
import Verif.Props.ExistenceW
import Verif.Props.ExistenceW2
import Verif.Lemmas.EM
import Verif.Lemmas.EMExact
import Verif.Lemmas.EMRun
import Verif.Lemmas.EMFit
import Verif.Lemmas.EMModels
import Verif.Spec.CremaFixed
import Verif.Props.CremaFixed
import Verif.Witness.Models
import Verif.Witness.Laws
import Verif.Witness.Solve
import Verif.Witness.Graphs
import Verif.Witness.Gens
import Verif.Witness.Solve2
import Verif.Witness.Sample
import Verif.Witness.Numerics
import Verif.Witness.Rest
import Verif.Props.CremaLaw
import Verif.Props.CremaLaw2
import Verif.Witness.Crema
import Verif.Lemmas.Barrier
import Verif.Props.CremaNewton
import Verif.Witness.CremaNewton
import Verif.Witness.Relabel2
import Verif.Witness.Relabel3
import Verif.Props.Reverse1
import Verif.Props.Reverse2
import Verif.Props.Reverse3
import Verif.Props.Reverse4
import Verif.Witness.Reverse
import Verif.Model.Verbose
import Verif.Spec.Verbose
import Verif.Props.Verbose
import Verif.Witness.Verbose
import Verif.Props.Symmetric
import Verif.Witness.Symmetric
import Verif.Props.Units
import Verif.Witness.Units
import Verif.Props.Isolated
import Verif.Props.Isolated2
import Verif.Witness.Isolated
import Verif.Props.Float
import Verif.Witness.Float
import Verif.Model.Float2
import Verif.Props.Float2
import Verif.Witness.Float2
import Verif.Model.Checked
import Verif.Model.Checked2
import Verif.Lemmas.Checked
import Verif.Lemmas.Checked2
import Verif.Props.Checked
import Verif.Props.Checked2
import Verif.Props.Checked3
import Verif.Witness.Checked
import Verif.Model.SamplerAttr
import Verif.Spec.SampleAfter
import Verif.Props.SampleAfter
import Verif.Props.SampleAfterD
import Verif.Props.SampleAfterLaw
import Verif.Props.SampleAfterCrema
import Verif.Witness.SampleAfter
import Verif.Witness.SampleAfterCrema
import Verif.Witness.Reports2
import Verif.Witness.Continue
import Verif.Witness.Stricter
import Verif.Props.ZeroNodes
import Verif.Witness.ZeroNodes
import Verif.Model.Checked3
import Verif.Lemmas.Checked3
import Verif.Props.Checked4
import Verif.Witness.Checked4
import Verif.Props.Checked5
import Verif.Props.SampleAfter2
import Verif.Witness.SampleAfter2
import Verif.Props.SparseGiven
import Verif.Witness.SparseGiven
import Verif.Props.SparseGiven2
import Verif.Witness.SparseGiven2
import Verif.Props.TwoCalls
import Verif.Props.TwoCalls2
import Verif.Props.TwoCalls3
import Verif.Witness.TwoCalls
