import Verif.DoublyLinkedList.Props
import Verif.Delegate.Props
import Verif.SingleLinkedList.Props
import Verif.BitMap.Props
import Verif.CriticalSection.Props
import Verif.RefPtr.Props
import Verif.Async.Props
import Verif.Sequenced.Props
import Verif.Utf.IllFormed
import Verif.Utf.Exact8
import Verif.Utf.Iff
import Verif.Optional.Props
import Verif.View.Props
import Verif.UniquePtr.Props
import Verif.ObserverPtr.Props
import Verif.RefHandle.Props
import Verif.Interlocked.Props
import Verif.Interlocked.Progress
import Verif.MathUtils.Props
import Verif.Time.Props
import Verif.Version.Props
import Verif.HashSet.Props
import Verif.Treiber.Props
import Verif.Spsc.Props
import Verif.WaitAddr.Props
import Verif.StrHeap.Witness
import Verif.StrHeap.Bounds
import Verif.TimingWheel.Witness
import Verif.Path.Witness
import Verif.When.AllProps
import Verif.When.AnyProps
import Verif.Cancel.Props
import Verif.WaitMgr.Props
import Verif.Sequenced.Join
import Verif.Parallel.Props
import Verif.ThreadRunner.Props
import Verif.ThreadRunner.Ends
import Verif.ThreadRunner.Stop
import Verif.Arr.Model
import Verif.Arr.Range
import Verif.Arr.Shift
import Verif.Arr.Lemmas
import Verif.Arr.Ops
import Verif.Arr.World
import Verif.Arr.Props
import Verif.Arr.Effect
import Verif.Arr.Stay
import Verif.Arr.Claims
import Verif.Arr.Witness
import Verif.NStr.Model
import Verif.NStr.Lemmas
import Verif.NStr.Ops
import Verif.NStr.Enc
import Verif.NStr.Props
import Verif.NStr.Witness
import Verif.Send.Props
import Verif.PoolTimer.Props
import Verif.IoOp.Props
import Verif.IoOp.Token
import Verif.Proxy.Props
import Verif.Handle.Props
import Verif.PoolWait.Props
import Verif.WaitTask.Props
import Verif.Soo.Witness
import Verif.Cache.Props
import Verif.Cache.TokenProps
import Verif.TokenFrom.Props
import Verif.TokenFrom.Memory
import Verif.LowPriv.Props
import Verif.LocalTime.Props
import Verif.Coro.Props
import Verif.Coro.Witness
import Verif.Chain.Props
import Verif.Chain.Witness
import Verif.ErrCode.Props
import Verif.CpuCount.Props
import Verif.Tchar.Props
import Verif.ComObj.Props
import Verif.Bind.Props
import Verif.SysToken.Props
import Verif.FileVer.Props
import Verif.TimerWait.Props
import Verif.LinuxPool.Props
import Verif.Arr.Sort
import Verif.Guard.Props
import Verif.Alloc.Props
import Verif.StrHeap.Format
import Verif.Utf.Ansi
import Verif.Current.Props
import Verif.Parallel.LifeProps
import Verif.Throw.Props
import Verif.CharView.Props
import Verif.CharView.Order
import Verif.StrHeap.CodePage
import Verif.Sleep.Props
import Verif.Delay.Props
import Verif.Delay.Slow
import Verif.NText.Props
import Verif.WaitLoop.Props
import Verif.WaitObj.Props
import Verif.Layout.Props
import Verif.MsgLoop.Witness
import Verif.RefGraph.Props
import Verif.RefGraph.Witness
import Verif.Grow.Props
import Verif.ObserverPtr.Eq
import Verif.CriticalSection.Depth
import Verif.Spsc.Memory
import Verif.Sequenced.Consumer
import Verif.Spsc.Two
import Verif.Sequenced.LifeWitness
import Verif.RunnerId.Props
import Verif.UniqueGraph.Props
import Verif.IoCall.Props
import Verif.ProxyTimer.Props
import Verif.ProxyTimer.Witness
import Verif.Repeat.Props
import Verif.AnsiView.Props
import Verif.NStr.Assign
import Verif.StrHeap.Operators
import Verif.Oracles
import Verif.Oracles2
