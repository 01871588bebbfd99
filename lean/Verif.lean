import Verif.Join.Model
import Verif.Join.RleLemmas
import Verif.Join.MergeLemmas
import Verif.Join.Spec
import Verif.Join.TableLemmas
import Verif.Join.PartyLemmas
import Verif.Join.Props
import Verif.JoinText.Props
import Verif.Text.Model
import Verif.Text.Lemmas
import Verif.Bucket.Model
import Verif.Bucket.Lemmas
import Verif.Bucket.Props
import Verif.Common.Spec
import Verif.Common.Lemmas
import Verif.Ecdh.StoreLemmas
import Verif.Ecdh.Wire
import Verif.Ecdh.WireLemmas
import Verif.Ecdh.Model
import Verif.Ecdh.Lemmas
import Verif.Ecdh.Props
import Verif.EndToEnd.Lemmas
import Verif.EndToEnd.Props
import Verif.Recovery.Model
import Verif.Recovery.Lemmas
import Verif.Recovery.Props
import Verif.Ecdh.Resume
import Verif.Ecdh.ResumeLemmas
import Verif.Ecdh.ResumeProps
import Verif.Ecdh.Restarts
import Verif.Ecdh.RestartsLemmas
import Verif.Ecdh.RestartsProps
import Verif.Bucketed.Model
import Verif.Bucketed.Lemmas
import Verif.Bucketed.Props
import Verif.Digest.Model
import Verif.Digest.Lemmas
import Verif.Digest.Props
import Verif.Cuckoo.Model
import Verif.Cuckoo.Spec
import Verif.Cuckoo.Lemmas
import Verif.Cuckoo.Props
import Verif.Kkrt.Model
import Verif.Kkrt.EncLemmas
import Verif.Kkrt.Spec
import Verif.Kkrt.Lemmas
import Verif.Kkrt.ResultLemmas
import Verif.Kkrt.Props
import Verif.Kkrt.Counting
import Verif.Kkrt.Margin
import Verif.Kkrt.MarginProps
import Verif.Pipeline.Model
import Verif.Pipeline.Lemmas
import Verif.Pipeline.Props
import Verif.Rr22.Spec
import Verif.Rr22.Intersect
import Verif.Rr22.IntersectLemmas
import Verif.Rr22.IntersectProps
import Verif.Rr22.Margin
import Verif.Rr22.Parts
import Verif.Rr22.Counts
import Verif.Gf128.Model
import Verif.Gf128.Spec
import Verif.Gf128.PolyLemmas
import Verif.Gf128.FieldLemmas
import Verif.Gf128.SpecLemmas
import Verif.Gf128.Props
import Verif.Gf128.Ring
import Verif.Okvs.Comb
import Verif.Okvs.CombLemmas
import Verif.Okvs.Model
import Verif.Okvs.TriLemmas
import Verif.Okvs.FillLemmas
import Verif.Okvs.GaussLemmas
import Verif.Okvs.EncodeLemmas
import Verif.Okvs.DupLemmas
import Verif.Okvs.RankLemmas
import Verif.Okvs.Spec
import Verif.Okvs.CompleteLemmas
import Verif.Okvs.Hash
import Verif.Okvs.HashLemmas
import Verif.Okvs.Props
import Verif.Okvs.Weight
import Verif.Okvs.WeightLemmas
import Verif.Okvs.WeightTri
import Verif.Okvs.WeightProps
import Verif.Okvs.AuxProps
import Verif.Okvs.Decode
import Verif.Okvs.DecodeLemmas
import Verif.Common.Threads
import Verif.Baxos.Model
import Verif.Baxos.Lemmas
import Verif.Baxos.RunLemmas
import Verif.Baxos.Props
import Verif.Baxos.BinTable
import Verif.Baxos.BinSize
import Verif.Baxos.BinSizeLemmas
import Verif.Baxos.BinSizeProps
import Verif.Baxos.BinLevel
import Verif.Rr22.Oprf
import Verif.Rr22.OprfLemmas
import Verif.Rr22.OprfProps
import Verif.Whole.Model
import Verif.Whole.Lemmas
import Verif.Whole.BucketLemmas
import Verif.Whole.Props
import Verif.Provider.Model
import Verif.Provider.Spec
import Verif.Provider.Lemmas
import Verif.Provider.Props
import Verif.IndexStore.Model
import Verif.IndexStore.Spec
import Verif.IndexStore.Lemmas
import Verif.IndexStore.Props
import Verif.UbPsi.Model
import Verif.UbPsi.Spec
import Verif.UbPsi.Lemmas
import Verif.UbPsi.CacheLemmas
import Verif.UbPsi.TransferLemmas
import Verif.UbPsi.OnlineLemmas
import Verif.UbPsi.ExactLemmas
import Verif.UbPsi.Props
import Verif.UbPsi.MaskModel
import Verif.UbPsi.MaskProps
import Verif.Operator.WireProps
import Verif.UbLife.Model
import Verif.UbLife.Lemmas
import Verif.UbLife.Props
import Verif.Run.Model
import Verif.Run.Spec
import Verif.Run.Lemmas
import Verif.Run.StageLemmas
import Verif.Run.DuoLemmas
import Verif.Run.InitLemmas
import Verif.Run.Example
import Verif.Run.Props
import Verif.Launch.Model
import Verif.Launch.Lemmas
import Verif.Launch.Props
import Verif.Std.Model
import Verif.Std.Lemmas
import Verif.Net.Model
import Verif.Net.Lemmas
import Verif.Ecdh3.Model
import Verif.Ecdh3.Lemmas
import Verif.Ecdh3.PlanLemmas
import Verif.Ecdh3.ExactLemmas
import Verif.Ecdh3.Props
import Verif.Coll.Model
import Verif.Coll.Lemmas
import Verif.Legacy.Model
import Verif.Legacy.Spec
import Verif.Legacy.FileLemmas
import Verif.Legacy.NpartyLemmas
import Verif.Legacy.OperatorLemmas
import Verif.Legacy.BucketLemmas
import Verif.Legacy.RunLemmas
import Verif.Legacy.Props
import Verif.Legacy.DpModel
import Verif.Legacy.DpLemmas
import Verif.Legacy.DpProps
import Verif.Threshold.Model
import Verif.Threshold.Spec
import Verif.Threshold.FoundLemmas
import Verif.Threshold.OrderLemmas
import Verif.Threshold.PlanLemmas
import Verif.Threshold.ExactLemmas
import Verif.Threshold.Props
import Verif.ThresholdUb.Model
import Verif.ThresholdUb.Lemmas
import Verif.ThresholdUb.Props
import Verif.Spiral.ArithModel
import Verif.Spiral.ArithLemmas
import Verif.Spiral.ArithProps
import Verif.Spiral.NttModel
import Verif.Spiral.NttLemmas
import Verif.Spiral.NttButterfly
import Verif.Spiral.NttTransform
import Verif.Spiral.NttProps
import Verif.Spiral.RingModel
import Verif.Spiral.RingAlgebra
import Verif.Spiral.RingLemmas
import Verif.Spiral.MatLemmas
import Verif.Spiral.RingProps
import Verif.Spiral.PackModel
import Verif.Spiral.PackLemmas
import Verif.Spiral.PackRows
import Verif.Spiral.PackProps
import Verif.Spiral.ParamModel
import Verif.Spiral.ParamProps
import Verif.Spiral.SwitchModel
import Verif.Spiral.SwitchLemmas
import Verif.Spiral.SwitchProps
import Verif.Spiral.DbModel
import Verif.Spiral.DbProps
import Verif.Spiral.SchemeModel
import Verif.Spiral.SchemeLemmas
import Verif.Spiral.SchemeOps
import Verif.Spiral.SchemeExpand
import Verif.Spiral.SchemeQuery
import Verif.Spiral.SchemeAnswer
import Verif.Spiral.SchemeServe
import Verif.Spiral.SchemeNoise
import Verif.Spiral.SchemeProps
import Verif.Spiral.SchemeExamples
import Verif.Spiral.TernaryModel
import Verif.Spiral.TernaryProps
import Verif.Spiral.WireModel
import Verif.Spiral.WireLemmas
import Verif.Spiral.WireProps
import Verif.Spiral.WireExamples
import Verif.Spiral.GaussModel
import Verif.Spiral.GaussProps
import Verif.Nty.Model
import Verif.Nty.Lemmas
import Verif.Nty.Props
import Verif.Nty.Examples
import Verif.Nty.Leak
import Verif.SealPir.CodecModel
import Verif.SealPir.CodecLemmas
import Verif.SealPir.CodecProps
import Verif.SealPir.Model
import Verif.SealPir.Spec
import Verif.SealPir.ExpandLemmas
import Verif.SealPir.ComposeLemmas
import Verif.SealPir.AnswerLemmas
import Verif.SealPir.RespondLemmas
import Verif.SealPir.DbLemmas
import Verif.SealPir.Props
import Verif.SimplePir.Model
import Verif.SimplePir.Props
import Verif.SimplePir.WireModel
import Verif.SimplePir.WireProps
import Verif.DpPsi.Model
import Verif.DpPsi.Lemmas
import Verif.DpPsi.Props
import Verif.Kmprt.Model
import Verif.Kmprt.HashLemmas
import Verif.Kmprt.OpprfLemmas
import Verif.Kmprt.SessionLemmas
import Verif.Kmprt.Props
import Verif.DkPir.Model
import Verif.DkPir.TableLemmas
import Verif.DkPir.BillLemmas
import Verif.DkPir.RunLemmas
import Verif.DkPir.Props
import Verif.DkPir.KeyFileModel
import Verif.DkPir.KeyFileProps
import Verif.Pps.Model
import Verif.Pps.TreeLemmas
import Verif.Pps.WireLemmas
import Verif.Pps.SessionLemmas
import Verif.Pps.Props
import Verif.Pps.PrivacyProps
import Verif.Pps.Examples
import Verif.Piano.Model
import Verif.Piano.OfflineLemmas
import Verif.Piano.TurnLemmas
import Verif.Piano.RunLemmas
import Verif.Piano.Props
import Verif.Piano.GameLemmas
import Verif.Piano.SimLemmas
import Verif.Piano.PrivacyProps
import Verif.Piano.Examples
import Verif.Apsi.Model
import Verif.Apsi.FileLemmas
import Verif.Apsi.GroupLemmas
import Verif.Apsi.ServerLemmas
import Verif.Apsi.QueryLemmas
import Verif.Apsi.CliLemmas
import Verif.Apsi.RefuseLemmas
import Verif.Apsi.Props
import Verif.Apsi.DirProps
import Verif.Apsi.Examples
import Verif.Elligator.Prime
import Verif.Elligator.Model
import Verif.Elligator.FieldLemmas
import Verif.Elligator.Curve
import Verif.Elligator.PointLemmas
import Verif.Elligator.MapLemmas
import Verif.Elligator.HashLemmas
import Verif.Elligator.MapProps
import Verif.Elligator.HashProps
import Verif.Elligator.Examples
import Verif.Progress.Model
import Verif.Progress.Lemmas
import Verif.Progress.Props
import Verif.ApsiCore.Model
import Verif.ApsiCore.Spec
import Verif.ApsiCore.SenderLemmas
import Verif.ApsiCore.ReceiverLemmas
import Verif.ApsiCore.Props
import Verif.ApsiCore.Sample
import Verif.ApsiCore.WorkerLemmas
import Verif.ApsiCore.WorkerProps
import Verif.Cryptor.Model
import Verif.Cryptor.Lemmas
import Verif.Cryptor.Spec
import Verif.Cryptor.Props
import Verif.Cryptor.Sample
import Verif.Stored.Model
import Verif.Stored.Props
import Verif.Stored.Sample
import Verif.Session.Model
import Verif.Session.Lemmas
import Verif.Session.Props
import Verif.Session.Sample
import Verif.DpCalib.Model
import Verif.DpCalib.Gauss
import Verif.DpCalib.Privacy
import Verif.DpCalib.Search
import Verif.DpCalib.Budget
import Verif.DpCalib.Props
import Verif.DpCalib.Sample
import Verif.X25519.Primes
import Verif.X25519.Model
import Verif.X25519.Curve
import Verif.X25519.Ladder
import Verif.X25519.Order
import Verif.X25519.Lemmas
import Verif.X25519.Torsion
import Verif.X25519.Props
import Verif.X25519.Sample
import Verif.Ecdh.Counting
import Verif.Ecdh.Margin
import Verif.Ecdh.Margin25519
import Verif.Capi.Model
import Verif.Capi.Lemmas
import Verif.Capi.Session
import Verif.Capi.FileLemmas
import Verif.Capi.Props
import Verif.Capi.Sample
import Verif.P2p.Model
import Verif.P2p.Props
import Verif.ShellSort.Model
import Verif.ShellSort.Lemmas
import Verif.ShellSort.SortLemmas
import Verif.ShellSort.Props
import Verif.Procs.Model
import Verif.Procs.Lemmas
import Verif.Procs.Props
import Verif.Operator.Model
import Verif.Operator.Spec
import Verif.Operator.Lemmas
import Verif.Operator.Props
import Verif.PirLife.SealModel
import Verif.PirLife.SealLemmas
import Verif.PirLife.SealProps
import Verif.PirLife.SpiralModel
import Verif.PirLife.SpiralProps
import Verif.PirLife.SpiralLife
import Verif.Scratch.Model
import Verif.Scratch.Lemmas
import Verif.Scratch.Props
import Verif.TryPoint.Model
import Verif.TryPoint.Props
import Verif.TryPoint.Primes
import Verif.TryPoint.PointModel
import Verif.TryPoint.PointProps
