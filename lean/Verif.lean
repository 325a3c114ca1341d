import Verif.Props.Parser
import Verif.Props.Policy
import Verif.Props.Store
import Verif.Props.Policies
import Verif.Props.Isolation
import Verif.Props.Refinement
import Verif.Props.Crash
import Verif.Props.Concurrency
import Verif.Props.Check
import Verif.Props.Grants
import Verif.Props.Unions
import Verif.Props.Locality
import Verif.Props.Search
import Verif.Props.Explain
import Verif.Props.Dump
import Verif.Props.Definition
import Verif.Props.Containers
import Verif.Props.Interference
import Verif.Props.Writes
import Verif.Props.Bulk
import Verif.Props.Apart
import Verif.Props.Rewording
import Verif.Props.Repeat
import Verif.Props.Purge
import Verif.Props.Order
import Verif.Props.Updates
import Verif.Props.Drawing
import Verif.Props.Builder
import Verif.Props.Setup
import Verif.Props.Layers
import Verif.Props.Panics
import Verif.Props.Wire
import Verif.Props.Lookup
import Verif.Props.ByteStore
import Verif.Props.Rpc
import Verif.Props.Schema
import Verif.Props.Admission
import Verif.Props.Bystanders
import Verif.Props.Expansion
import Verif.Props.NodeId
import Verif.Props.Yaml
import Verif.Props.Cost
import Verif.Props.Hidden
import Verif.Spec.Rewrite
import Verif.Lemmas.Rewrite
import Verif.Lemmas.RewriteSearch
import Verif.Props.Rewrite
import Verif.Model.Errors
import Verif.Spec.Errors
import Verif.Lemmas.Errors
import Verif.Props.Errors
import Verif.Spec.Times
import Verif.Lemmas.Effects
import Verif.Props.Times
import Verif.Spec.Rename
import Verif.Lemmas.Rename
import Verif.Lemmas.RenameSearch
import Verif.Props.Rename
import Verif.Lemmas.TreeSize
import Verif.Lemmas.Ways
import Verif.Spec.Outcome
import Verif.Lemmas.Outcome
import Verif.Props.Outcome
import Verif.Spec.Involved
import Verif.Lemmas.Involved
import Verif.Props.Involved
import Verif.Lemmas.InvolvedSet
import Verif.Props.Unconcerned
import Verif.Props.RepoTests
import Verif.Spec.Trace
import Verif.Lemmas.Trace
import Verif.Props.Trace
import Verif.Spec.Linear
import Verif.Lemmas.Linear
import Verif.Props.Linear
import Verif.Spec.Clock
import Verif.Lemmas.Clock
import Verif.Props.Clock
import Verif.Spec.Copy
import Verif.Lemmas.Copy
import Verif.Props.Copy
import Verif.Spec.Extend
import Verif.Lemmas.Extend
import Verif.Props.Extend
import Verif.Spec.Widen
import Verif.Lemmas.Widen
import Verif.Props.Widen
import Verif.Spec.Busy
import Verif.Lemmas.Busy
import Verif.Props.Busy
import Verif.Props.Passing
import Verif.Model.Gateway
import Verif.Spec.Gateway
import Verif.Lemmas.Gateway
import Verif.Props.Gateway
import Verif.Spec.Respell
import Verif.Lemmas.Respell
import Verif.Lemmas.RespellSearch
import Verif.Props.Respell
import Verif.Lemmas.OneWay
import Verif.Props.OneWay
import Verif.Spec.Types
import Verif.Props.Types
import Verif.Lemmas.Attain
import Verif.Props.Attain
import Verif.Spec.Flatten
import Verif.Props.Flatten
import Verif.Spec.Revoke
import Verif.Lemmas.Revoke
import Verif.Props.Revoke
import Verif.Spec.Elsewhere
import Verif.Props.Elsewhere
import Verif.Spec.Idle
import Verif.Props.Idle
import Verif.Spec.Aside
import Verif.Lemmas.Aside
import Verif.Props.Aside
import Verif.Spec.Rests
import Verif.Lemmas.Rests
import Verif.Props.Rests
import Verif.Spec.Twins
import Verif.Props.Twins
import Verif.Props.TwinObjects
import Verif.Spec.AppData
import Verif.Props.AppData
import Verif.Spec.Undo
import Verif.Props.Undo
import Verif.Spec.Trial
import Verif.Props.Trial
import Verif.Model.Daemon
import Verif.Spec.Daemon
import Verif.Props.Daemon
import Verif.Model.Cli
import Verif.Spec.Cli
import Verif.Props.Cli
import Verif.Spec.Steps
import Verif.Props.Steps
import Verif.Props.Unshown
import Verif.Spec.FirstMention
import Verif.Lemmas.FirstMention
import Verif.Props.FirstMention
import Verif.Spec.BusyExplain
import Verif.Lemmas.BusyExplain
import Verif.Props.BusyExplain
import Verif.Lemmas.BusyRests
import Verif.Props.BusyRests
