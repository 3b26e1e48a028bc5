import Verif.Props.Foundations
import Verif.Props.Pipelines
import Verif.Props.Operators
import Verif.Props.Scheduler
import Verif.Props.Combine
import Verif.Props.Shared
import Verif.Props.SharedSubscription
import Verif.Props.Subjects
import Verif.Props.CachingSubjects
import Verif.Props.HigherOrder
import Verif.Props.Recovery
import Verif.Props.Retry
import Verif.Props.Timed
import Verif.Props.Debounce
import Verif.Props.ObserveOn
import Verif.Props.Throttle
import Verif.Props.IntervalTimer
import Verif.Props.Sources
import Verif.Props.Iterator
import Verif.Props.SubscribeOn
import Verif.Props.Fallback
import Verif.Props.Adsr
import Verif.Props.Share
import Verif.Props.BevyCommands
import Verif.Props.BevySources
import Verif.Props.Released
import Verif.Props.BevyDestinations
import Verif.Props.SharedClosing
import Verif.Props.MergeConcat
import Verif.Props.SubjectThreads
import Verif.Props.BevyEvents
import Verif.Props.CachingThreads
import Verif.Props.AsyncThreads
import Verif.Props.Panics
import Verif.Props.BevySubjects
import Verif.Props.BevyProxy
import Verif.Props.Testing
import Verif.Props.CombineWiring
import Verif.Props.SharedHandles
import Verif.Props.LatestWiring
import Verif.Props.SchedulerPanics
import Verif.Props.Callbacks
import Verif.Props.OptionSubscription
import Verif.Props.SubjectFeeds
import Verif.Props.SharedDrops
import Verif.Props.SubjectDrops
import Verif.Props.SubscriptionDrops
import Verif.Props.FlagDrops
