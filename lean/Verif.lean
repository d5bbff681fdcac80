import Verif.Work.Props
import Verif.Mask.Props
import Verif.Take.Props
import Verif.Crc.Props
import Verif.Convert.Props
import Verif.Reduce.Props
import Verif.Reduce.SumProps
import Verif.Reduce.SumWitness
import Verif.Window.Props
import Verif.Bits.Props
import Verif.Record.Props
import Verif.Str.Props
import Verif.Hash.MemberProps
import Verif.Hash.FloatProps
import Verif.Hash.StrProps
import Verif.Hash.GroupProps
import Verif.Hash.BytesProps
import Verif.Asof.Props
import Verif.Sort.Check
import Verif.Pack.Props
import Verif.GroupBy.SumProps
import Verif.GroupBy.MinProps
import Verif.GroupBy.MeanProps
import Verif.GroupBy.FloatProps
import Verif.GroupBy.Witness
import Verif.Rolling.Props
import Verif.Rolling.SumProps
import Verif.Rolling.ShiftProps
import Verif.Heap.Props
import Verif.Heap.QProps
import Verif.Bins.Props
import Verif.Bins.StrProps
import Verif.Recycle.WsProps
import Verif.Recycle.Props
import Verif.LogQueue.Props
import Verif.LexGroup.PartProps
import Verif.Combine.Props
import Verif.Arrays.AssignProps
import Verif.Arrays.ShiftProps
import Verif.Ema.NormalProps
import Verif.Ema.RollProps
import Verif.Ema.InterpProps
import Verif.Ema.VarProps
import Verif.Quick.Props
import Verif.Median.Props
import Verif.Median.QuantProps
import Verif.GroupBy.VarProps
import Verif.Date.Props
import Verif.Date.Accept
import Verif.Date.StrpProps
import Verif.Binary.CompareProps
import Verif.Binary.MathProps
import Verif.Binary.DivProps
import Verif.Binary.LayoutProps
import Verif.Binary.WhereProps
import Verif.Binary.UpcastProps
import Verif.Unary.RoundProps
import Verif.Unary.SignProps
import Verif.Unary.TestProps
import Verif.Unary.TwoDimProps
import Verif.Unary.MathProps
import Verif.Reduce.VarianceProps
import Verif.Reduce.EntryProps
import Verif.Cat.Props
import Verif.AsArray.Props
import Verif.Sds.BlockProps
import Verif.Sds.FileProps
import Verif.Sds.SectionProps
import Verif.Sds.HistoryProps
import Verif.Compress.Props
import Verif.Stack.TypesProps
import Verif.Stack.ConvertProps
import Verif.Stack.ColumnFaults
import Verif.Stack.RotateProps
import Verif.Stack.FilterFaults
import Verif.Member.GraphFaults
import Verif.Bins.QuantileCuts
import Verif.Hash.MultiKeyFull
import Verif.Take.ReIndexProps
import Verif.Arrays.AllocProps
import Verif.Hash.CategoricalProps
import Verif.Sds.ShareProps
import Verif.Sds.ShareFileProps
import Verif.Hook.TableProps
import Verif.GroupBy.EntryPackProps
import Verif.Asof.EntryProps
import Verif.Hash.MkEntryRolling
import Verif.Hash.IsMemEntryProps
import Verif.Reduce.CallVar
import Verif.Ema.EntryBugs
import Verif.Convert.CallVals
import Verif.Sort.CallBad
import Verif.Sds.IncludeBad
import Verif.OneInput.Wrong
import Verif.Bins.CallWrong
import Verif.Mask.CallWrong
import Verif.Date.CallWrong
import Verif.Take.CallWrong
import Verif.Sds.MaskedWrong
import Verif.Window.CallWrong
import Verif.Pack.CallWrong
import Verif.Keys.Wrong
import Verif.Arrays.InfoWrong
import Verif.Bins.SortedWrong
import Verif.Work.StartWrong
import Verif.Keys.AccumWrong
import Verif.Quick.CallWrong
import Verif.LexGroup.CallWrong
import Verif.Arrays.KeepOrder
import Verif.Sds.SaveWrong
import Verif.Sds.ManyWrong
import Verif.Arrays.ShiftCallWrong
import Verif.Arrays.StackCallWrong
import Verif.Unary.CallWrong
import Verif.Arrays.AssignCallWrong
import Verif.Recycle.CallWrong
import Verif.Shm.CallWrong
import Verif.LogCall.CallWrong
import Verif.AsArray.CallWrong
import Verif.SdsResult.CallWrong
import Verif.Module.CallWrong
import Verif.Module.Table
import Verif.Module.TableSpec
import Verif.Module.TableProps
import Verif.Module.TableWrong
import Verif.Hook.Two
import Verif.Hook.TwoSpec
import Verif.Hook.TwoProps
import Verif.Hook.TwoWrong
import Verif.Hook.TwoMore
import Verif.Binary.Texts
import Verif.Binary.TextsSpec
import Verif.Binary.TextsProps
import Verif.Binary.TextsWrong
import Verif.Shm.ReadOnly
import Verif.Shm.ReadOnlySpec
import Verif.Shm.ReadOnlyProps
import Verif.Shm.ReadOnlyWrong
