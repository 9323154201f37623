import Verif.Base
import Verif.Base64.Props
import Verif.MemoryData.Props
import Verif.Uuid.Props
import Verif.ConstBuffer.Props
import Verif.ConstBufferLife.Props
import Verif.ConstBufferArray.Props
import Verif.Batcher.Props
import Verif.Splitter.Props
import Verif.Buffer.Props
import Verif.Strings.Props
import Verif.Map.Json
import Verif.SList.Props
import Verif.DList.Props
import Verif.Sliding.Props
import Verif.AsyncOp.Props
import Verif.Tracker.Props
import Verif.RcString.Props
import Verif.RcSplit.Props
import Verif.TArray.Props
import Verif.TwoD.Props
import Verif.Paged.Props
import Verif.Flags.Props
import Verif.Filename.Props
import Verif.External.Props
import Verif.Folder.Props
import Verif.AsyncType.Props
import Verif.SyncWrapper.Props
import Verif.Retry.Props
import Verif.Retry.Live
import Verif.Retry.Reasons
import Verif.CritSec.Props
import Verif.TpWorker.Props
import Verif.TpWorkerLife.Props
import Verif.TpWorkerLife.Live
import Verif.WorkerThread.Props
import Verif.Dispatcher.Props
import Verif.Dispatcher.Live
import Verif.CancelToken.Props
import Verif.Watchdog.Props
import Verif.OnceInit.Props
import Verif.Channel.Props
import Verif.Writable.Props
import Verif.ChannelHeap.Props
import Verif.Hash.Props
import Verif.BufferHeap.Props
import Verif.StringHeap.Props
import Verif.Live
import Verif.Settle
import Verif.WorkerThread.Live
import Verif.TpWorker.Live
import Verif.CritSec.Live
import Verif.Watchdog.Live
import Verif.Channel.Live
import Verif.SyncWait.Props
import Verif.Lackey.Props
import Verif.LeakCheck.Props
import Verif.TrackerHeap.Props
import Verif.ArrayLife.Props
import Verif.CancelToken.Live
import Verif.SampleRetry.Model
import Verif.SampleRetry.Lemmas
import Verif.SampleRetry.Props
import Verif.SampleRetry.Live
import Verif.SampleChain.Model
import Verif.SampleChain.Lemmas
import Verif.SampleChain.Props
import Verif.SampleChain.Live
import Verif.SampleLl.Model
import Verif.SampleLl.Lemmas
import Verif.SampleLl.Props
import Verif.SampleLl.Live
import Verif.SampleCancelAll.Model
import Verif.SampleCancelAll.Lemmas
import Verif.SampleCancelAll.Props
import Verif.SampleCancelAll.Live
import Verif.SampleStack.Model
import Verif.SampleStack.Lemmas
import Verif.SampleStack.Props
import Verif.SampleStack.Live
import Verif.SerialArena.Model
import Verif.SerialArena.Spec
import Verif.SerialArena.Props
import Verif.WaitFree
import Verif.OnceInit.Live
import Verif.Lackey.Live
import Verif.AsyncOp.Live
import Verif.LeakFolder.Model
import Verif.LeakFolder.Spec
import Verif.LeakFolder.Props
import Verif.TestHelpers.Model
import Verif.TestHelpers.Spec
import Verif.TestHelpers.Props
import Verif.SlidingConc.Model
import Verif.SlidingConc.Spec
import Verif.SlidingConc.Props
import Verif.TrackerConc.Model
import Verif.TrackerConc.Props
