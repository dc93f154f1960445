import Verif.Basic
import Verif.FixedHeader
import Verif.Packets311
import Verif.Spec.Wire311
import Verif.Lemmas.FixedHeader
import Verif.Lemmas.Packets311
import Verif.Props.C01
import Verif.Props.C03
import Verif.Props.C03Connect
import Verif.Send311
import Verif.Decoder311
import Verif.Lemmas.Decoder311
import Verif.Props.C04
import Verif.Props.C05
import Verif.Props.C54Exact
import Verif.Props.C06
import Verif.Text
import Verif.Spec.Topic
import Verif.Lemmas.Text
import Verif.Props.C08
import Verif.Map
import Verif.TopicTree
import Verif.Lemmas.TopicTree
import Verif.Lemmas.TopicStrings
import Verif.Props.C09
import Verif.Props.C11
import Verif.RateLimiter
import Verif.Lemmas.RateLimiter
import Verif.Props.C14
import Verif.SubscriptionSet
import Verif.Lemmas.SubscriptionSet
import Verif.Props.C13
import Verif.TopicAlias
import Verif.Spec.TopicAlias
import Verif.Lemmas.TopicAlias
import Verif.Props.C17
import Verif.Vli5
import Verif.Lemmas.Vli5
import Verif.Props.C19
import Verif.Views5
import Verif.Encoder5
import Verif.Lemmas.Encoder5
import Verif.Props.C20
import Verif.Spec.Wire5
import Verif.Spec.View5
import Verif.Lemmas.Wire5
import Verif.Lemmas.Packets5
import Verif.Props.C22
import Verif.TopicUtils5
import Verif.Validate5
import Verif.Props.C39
import Verif.Props.C56
import Verif.Metrics
import Verif.Props.C57
import Verif.Decoder5
import Verif.Lemmas.Stream5
import Verif.Spec.Server5
import Verif.Lemmas.Decoder5
import Verif.Lemmas.Server5
import Verif.Props.C24
import Verif.Props.C23
import Verif.Props.C25
import Verif.Negotiated5
import Verif.Reconnect
import Verif.Callbacks5
import Verif.Client5
import Verif.Timing5
import Verif.Spec.Client5
import Verif.Lemmas.Client5
import Verif.Lemmas.Client5Fields
import Verif.Lemmas.Client5Held
import Verif.Lemmas.Client5Run
import Verif.Lemmas.Client5Log
import Verif.Lemmas.Client5Live
import Verif.Lemmas.Client5Track
import Verif.Lemmas.Client5Ids
import Verif.Lemmas.Client5Fresh
import Verif.Lemmas.Client5Stats
import Verif.Lemmas.Client5Origin
import Verif.Lemmas.Client5Window
import Verif.Lemmas.KernelRfl
import Verif.Lemmas.Client5Faults
import Verif.Lemmas.Client5Life
import Verif.Lemmas.Client5Ping
import Verif.Lemmas.Client5Timer
import Verif.Spec.Stamps5
import Verif.Lemmas.Client5Ack
import Verif.Lemmas.Client5Due
import Verif.Lemmas.Client5Alarm
import Verif.Lemmas.Client5Expire
import Verif.Lemmas.Client5TimedRun
import Verif.Props.C27
import Verif.Lemmas.Client5Size
import Verif.Props.C26
import Verif.Props.C28
import Verif.Props.C29
import Verif.Props.C30
import Verif.Props.C31
import Verif.Props.C33
import Verif.Props.C34
import Verif.Lemmas.Client5Drain
import Verif.Lemmas.Client5Manual
import Verif.Lemmas.Client5Order
import Verif.Props.C32
import Verif.Props.C35
import Verif.Props.C36
import Verif.Props.C37
import Verif.Props.C38
import Verif.Props.C40
import Verif.Props.C55
import Verif.Props.C58
import Verif.RrManager
import Verif.Spec.RrManager
import Verif.Lemmas.RrManager
import Verif.Lemmas.RrManagerInv
import Verif.Props.C41
import Verif.Props.C42
import Verif.Props.C43
import Verif.RrClient
import Verif.Spec.RrClient
import Verif.Lemmas.RrSound
import Verif.Lemmas.RrClient
import Verif.Lemmas.RrClientOps
import Verif.Lemmas.RrClientQueue
import Verif.Lemmas.RrClientRun
import Verif.Lemmas.RrClientTasks
import Verif.Lemmas.RrClientStep
import Verif.Lemmas.RrClientInv
import Verif.Lemmas.RrClientHistory
import Verif.Lemmas.RrClientCalm
import Verif.Lemmas.RrClientTime
import Verif.Props.C44
import Verif.Props.C59
import Verif.Lemmas.RrFed
import Verif.Lemmas.RrOnce
import Verif.Lemmas.RrTakes
import Verif.Lemmas.RrClientPublish
import Verif.Lemmas.RrClientDue
import Verif.Props.C45
import Verif.Lemmas.RrClientStreams
import Verif.Lemmas.RrClientRoute
import Verif.Props.C46
import Verif.Client311
import Verif.Spec.Client311
import Verif.Lemmas.Client311Store
import Verif.Lemmas.Client311
import Verif.Lemmas.Client311Ids
import Verif.Lemmas.Client311Step
import Verif.Lemmas.Client311Ctl
import Verif.Lemmas.Client311CtlStep
import Verif.Lemmas.Client311Held
import Verif.Lemmas.Client311Run
import Verif.Lemmas.Client311Fault
import Verif.Lemmas.Client311Log
import Verif.Lemmas.Client311Sends
import Verif.Lemmas.Client311Spec
import Verif.Lemmas.Client311Link
import Verif.Props.C47
import Verif.Props.C48
import Verif.Lemmas.Client311Stats
import Verif.Lemmas.Client311Order
import Verif.Props.C49
import Verif.Props.C50
import Verif.Props.C51
import Verif.Props.C52
import Verif.Props.C53
import Verif.Props.C60
import Verif.Props.C61
import Verif.Props.C62
import Verif.Adapter
import Verif.Spec.Adapter
import Verif.Lemmas.Client5Soft
import Verif.Lemmas.Adapter
import Verif.Lemmas.AdapterLedger
import Verif.Lemmas.AdapterTask
import Verif.Lemmas.AdapterRun
import Verif.Lemmas.AdapterRefs
import Verif.Lemmas.AdapterTable
import Verif.Lemmas.AdapterClient
import Verif.Lemmas.AdapterOps
import Verif.Lemmas.AdapterDrive
import Verif.Lemmas.AdapterHeld
import Verif.Lemmas.AdapterEnd
import Verif.Props.C63
import Verif.Props.C64
import Verif.Props.C65
import Verif.Props.C66
import Verif.Lemmas.AdapterStems
import Verif.Lemmas.AdapterDown
import Verif.Props.C67
import Verif.Props.C68
import Verif.Props.C69
import Verif.Props.C70
import Verif.Spec.AdapterSubs
import Verif.Lemmas.AdapterSubs
import Verif.Props.C71
import Verif.Props.C72
import Verif.Props.C73
import Verif.Props.C74
import Verif.Options5
import Verif.Spec.Connack5
import Verif.Lemmas.Client5Connack
import Verif.Props.C75
import Verif.Spec.Connect5
import Verif.Spec.Options5
import Verif.Lemmas.Client5Connect
import Verif.Props.C76
import Verif.Spec.Stream5
import Verif.Lemmas.Streamed5
import Verif.Lemmas.Client5Stream
import Verif.Props.C77
import Verif.Lemmas.Client5Rep
import Verif.Lemmas.Client5Tame
import Verif.Props.C77Inputs
import Verif.Props.C77Typed
import Verif.Lemmas.Client5Begin
import Verif.Props.C78
import Verif.Spec.Lru
import Verif.Spec.Aliases5
import Verif.Lemmas.TopicAliasLru
import Verif.Lemmas.Client5Alias
import Verif.Props.C79
import Verif.Props.C79Calls
import Verif.KeepAlive311
import Verif.Spec.KeepAlive311
import Verif.Lemmas.KeepAlive311
import Verif.Lemmas.KeepAlive311Ping
import Verif.Lemmas.KeepAlive311Shut
import Verif.Lemmas.KeepAlive311Full
import Verif.Props.C80
import Verif.Storage5
import Verif.Spec.Storage5
import Verif.Lemmas.Storage5
import Verif.Props.C81
import Verif.Options311
import Verif.Spec.Options311
import Verif.Lemmas.Options311
import Verif.Props.C82
import Verif.Subs311
import Verif.Spec.Subs311
import Verif.Lemmas.Subs311
import Verif.Lemmas.Subs311Strings
import Verif.Lemmas.Subs311Refs
import Verif.Lemmas.Subs311Log
import Verif.Props.C83
import Verif.Props.C84
import Verif.Timeout311
import Verif.Spec.Timeout311
import Verif.Lemmas.Timeout311
import Verif.Lemmas.Timeout311Log
import Verif.Props.C85
import Verif.Listener311
import Verif.Spec.Listener311
import Verif.Lemmas.Listener311
import Verif.Lemmas.Listener311Log
import Verif.Props.C86
import Verif.AdapterOptions
import Verif.Spec.AdapterOptions
import Verif.Lemmas.AdapterOptions
import Verif.Lemmas.MetricsTwice
import Verif.Props.C87
import Verif.Life5
import Verif.Spec.Life5
import Verif.Lemmas.Life5
import Verif.Spec.Progress311
import Verif.Lemmas.Progress311
import Verif.Lemmas.Progress311Run
import Verif.Props.C88
import Verif.Props.C89
import Verif.Lemmas.Cancel311
import Verif.Lemmas.Keep311
import Verif.Props.C90
import Verif.Notify311
import Verif.Spec.Notify311
import Verif.Lemmas.Notify311
import Verif.Props.C91
import Verif.ManualAck5
import Verif.Spec.ManualAck5
import Verif.Lemmas.ManualAck5
import Verif.Props.C92
import Verif.Websocket311
import Verif.Spec.Websocket311
import Verif.Lemmas.Websocket311
import Verif.Props.C93
import Verif.Disconnect311
import Verif.Lemmas.Disconnect311
import Verif.Props.C94
import Verif.Return311
import Verif.Props.C95
import Verif.Courtesy311
import Verif.Lemmas.Courtesy311
import Verif.Props.C96
