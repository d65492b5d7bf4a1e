import Verif.Model.Address
import Verif.Model.Carrier
import Verif.Model.Cbor
import Verif.Model.Client
import Verif.Model.Concurrent
import Verif.Model.Conn
import Verif.Model.ConsumerGauges
import Verif.Model.Decimal
import Verif.Model.Delivery
import Verif.Model.Durability
import Verif.Model.Durations
import Verif.Model.EndToEnd
import Verif.Model.Exceptions
import Verif.Model.Frames
import Verif.Model.Heartbeat
import Verif.Model.Http
import Verif.Model.HttpText
import Verif.Model.Ids
import Verif.Model.Interrupt
import Verif.Model.Iterators
import Verif.Model.JsonText
import Verif.Model.Leftover
import Verif.Model.Mailbox
import Verif.Model.Maintenance
import Verif.Model.Map
import Verif.Model.Messages
import Verif.Model.MetaState
import Verif.Model.Metrics
import Verif.Model.Migration
import Verif.Model.ObjectStore
import Verif.Model.Polling
import Verif.Model.Pools
import Verif.Model.Programs
import Verif.Model.PyCalls
import Verif.Model.PyTypes
import Verif.Model.Python
import Verif.Model.Query
import Verif.Model.Reconnect
import Verif.Model.Recovery
import Verif.Model.Reserver
import Verif.Model.Retention
import Verif.Model.Rfc3339
import Verif.Model.Savepoints
import Verif.Model.Scaling
import Verif.Model.Server
import Verif.Model.Shutdown
import Verif.Model.Snowflake
import Verif.Model.Sql
import Verif.Model.Startup
import Verif.Model.Statements
import Verif.Model.Strategy
import Verif.Model.Streaming
import Verif.Model.System
import Verif.Model.Types
import Verif.Model.Upgrade
import Verif.Model.Watchdog
import Verif.Model.Wire
import Verif.Spec.Address
import Verif.Spec.Answers
import Verif.Spec.Budget
import Verif.Spec.Client
import Verif.Spec.Concurrent
import Verif.Spec.Conn
import Verif.Spec.ConsumerGauges
import Verif.Spec.Delivery
import Verif.Spec.Documents
import Verif.Spec.Durations
import Verif.Spec.EndToEnd
import Verif.Spec.Endpoints
import Verif.Spec.ExampleSchema
import Verif.Spec.Exceptions
import Verif.Spec.Fairness
import Verif.Spec.Frames
import Verif.Spec.Heartbeat
import Verif.Spec.Http
import Verif.Spec.HttpText
import Verif.Spec.Inherited
import Verif.Spec.Interrupt
import Verif.Spec.Iterators
import Verif.Spec.JsonText
import Verif.Spec.Leftover
import Verif.Spec.Machine
import Verif.Spec.Mailbox
import Verif.Spec.Maintenance
import Verif.Spec.Messages
import Verif.Spec.Metrics
import Verif.Spec.Numerals
import Verif.Spec.ObjectStore
import Verif.Spec.Observe
import Verif.Spec.Polling
import Verif.Spec.Pools
import Verif.Spec.Python
import Verif.Spec.Reconnect
import Verif.Spec.Recovery
import Verif.Spec.Reserver
import Verif.Spec.Scaling
import Verif.Spec.Server
import Verif.Spec.Startup
import Verif.Spec.Stored
import Verif.Spec.Streaming
import Verif.Spec.Times
import Verif.Spec.Upgrade
import Verif.Spec.Work
import Verif.Proofs.Address
import Verif.Proofs.Alive
import Verif.Proofs.Answering
import Verif.Proofs.Answers
import Verif.Proofs.Budget
import Verif.Proofs.Calls
import Verif.Proofs.Cbor
import Verif.Proofs.Client
import Verif.Proofs.Concurrent
import Verif.Proofs.ConcurrentReads
import Verif.Proofs.Conn
import Verif.Proofs.Connections
import Verif.Proofs.ConsumerGauges
import Verif.Proofs.Counted
import Verif.Proofs.Counting
import Verif.Proofs.Decimal
import Verif.Proofs.Delivery
import Verif.Proofs.Documents
import Verif.Proofs.Effects
import Verif.Proofs.EndToEnd
import Verif.Proofs.Endpoints
import Verif.Proofs.Exceptions
import Verif.Proofs.Fairness
import Verif.Proofs.FairnessExample
import Verif.Proofs.Faults
import Verif.Proofs.Fetch
import Verif.Proofs.Fits
import Verif.Proofs.Frames
import Verif.Proofs.Gauges
import Verif.Proofs.Heartbeat
import Verif.Proofs.History
import Verif.Proofs.Holding
import Verif.Proofs.Honest
import Verif.Proofs.Http
import Verif.Proofs.HttpText
import Verif.Proofs.Ids
import Verif.Proofs.Inherited
import Verif.Proofs.Interrupt
import Verif.Proofs.Invariant
import Verif.Proofs.Iterators
import Verif.Proofs.JsonText
import Verif.Proofs.Ledger
import Verif.Proofs.Leftover
import Verif.Proofs.Lists
import Verif.Proofs.Machine
import Verif.Proofs.MachineRun
import Verif.Proofs.MachineStep
import Verif.Proofs.Mailbox
import Verif.Proofs.Maintenance
import Verif.Proofs.Map
import Verif.Proofs.Messages
import Verif.Proofs.MetaState
import Verif.Proofs.Metrics
import Verif.Proofs.Migration
import Verif.Proofs.ObjectStore
import Verif.Proofs.Outputs
import Verif.Proofs.Polling
import Verif.Proofs.Pools
import Verif.Proofs.Progress
import Verif.Proofs.ProgressRecord
import Verif.Proofs.Python
import Verif.Proofs.Reads
import Verif.Proofs.Reconnect
import Verif.Proofs.Recovery
import Verif.Proofs.Reports
import Verif.Proofs.Reserver
import Verif.Proofs.Results
import Verif.Proofs.Rfc3339
import Verif.Proofs.Savepoints
import Verif.Proofs.Scaling
import Verif.Proofs.Server
import Verif.Proofs.Session
import Verif.Proofs.Settled
import Verif.Proofs.Sql
import Verif.Proofs.Startup
import Verif.Proofs.Starving
import Verif.Proofs.Status
import Verif.Proofs.StatusReads
import Verif.Proofs.Step
import Verif.Proofs.Stored
import Verif.Proofs.Strategy
import Verif.Proofs.Streaming
import Verif.Proofs.Tally
import Verif.Proofs.Terminal
import Verif.Proofs.Timeline
import Verif.Proofs.Times
import Verif.Proofs.Upgrade
import Verif.Proofs.UpgradeData
import Verif.Proofs.UpgradeRun
import Verif.Proofs.Waiting
import Verif.Proofs.Wire
import Verif.Proofs.Work
import Verif.Props.Address
import Verif.Props.Atomicity
import Verif.Props.BothEnds
import Verif.Props.Budget
import Verif.Props.Calls
import Verif.Props.Carrier
import Verif.Props.Cleanup
import Verif.Props.Client
import Verif.Props.Concurrent
import Verif.Props.Conn
import Verif.Props.Connections
import Verif.Props.Conservation
import Verif.Props.ConsumerGauges
import Verif.Props.Delivery
import Verif.Props.Durability
import Verif.Props.Durations
import Verif.Props.EndToEnd
import Verif.Props.Endpoints
import Verif.Props.Exceptions
import Verif.Props.Fairness
import Verif.Props.Fetch
import Verif.Props.Frames
import Verif.Props.Heartbeat
import Verif.Props.Holding
import Verif.Props.Http
import Verif.Props.Ids
import Verif.Props.Immutable
import Verif.Props.Inherited
import Verif.Props.Interrupt
import Verif.Props.Iterators
import Verif.Props.JsonText
import Verif.Props.Ledger
import Verif.Props.Leftover
import Verif.Props.Lifecycle
import Verif.Props.Loss
import Verif.Props.Machine
import Verif.Props.Mailbox
import Verif.Props.Maintenance
import Verif.Props.Messages
import Verif.Props.MetaState
import Verif.Props.Metrics
import Verif.Props.Migration
import Verif.Props.ObjectStore
import Verif.Props.Polling
import Verif.Props.Pools
import Verif.Props.Progress
import Verif.Props.Python
import Verif.Props.Reads
import Verif.Props.Reconnect
import Verif.Props.Recovery
import Verif.Props.Reports
import Verif.Props.Reserver
import Verif.Props.Results
import Verif.Props.Retention
import Verif.Props.Savepoints
import Verif.Props.Scaling
import Verif.Props.Settled
import Verif.Props.Shutdown
import Verif.Props.Snowflake
import Verif.Props.Startup
import Verif.Props.Stored
import Verif.Props.Strategy
import Verif.Props.Streaming
import Verif.Props.Upgrade
import Verif.Props.Waiting
import Verif.Props.Watchdog
import Verif.Props.Work
