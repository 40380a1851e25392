import Verif.Props.Codec
import Verif.Props.RouteKey
import Verif.Props.Table
import Verif.Props.DList
import Verif.Props.Conc
import Verif.Props.Lookup
import Verif.Props.Actions
import Verif.Props.RouteInit
import Verif.Props.Insert
import Verif.Props.Delete
import Verif.Props.TableState
import Verif.Props.Dispatch
import Verif.Props.DispatchApi
import Verif.Props.DispatchPurge
import Verif.Props.Events
import Verif.Props.RefCount
import Verif.Props.EventGraph
import Verif.Props.RwLock
import Verif.Props.Kv
import Verif.Props.AddrFam
import Verif.Props.Cleanup
import Verif.Props.Clone
import Verif.Props.Context
import Verif.Props.Format
import Verif.Props.RbDict
import Verif.Props.JsonSax
import Verif.Props.LockBal
import Verif.Props.LookupReach
import Verif.Props.Lifecycle
import Verif.Props.Args
import Verif.Props.JsonNum
import Verif.Props.ConfNum
import Verif.Props.Config
import Verif.Props.RoundTrip
import Verif.Props.JsonDom
import Verif.Props.DomDump
import Verif.Props.Dump
import Verif.Props.JsonArray
import Verif.Props.JsonValue
import Verif.Props.LwipInstall
import Verif.Props.InsertOk
import Verif.Props.Exports
import Verif.Props.Track
import Verif.Props.Thread
import Verif.Props.Alloc
import Verif.Props.FreeRtos
import Verif.Props.LockLife
import Verif.Props.KvRender
import Verif.Props.RuleText
import Verif.Props.Masked
import Verif.Props.DefaultEvent
import Verif.Props.ResultText
import Verif.Props.ContextLife
import Verif.Model.LoadTx
import Verif.Spec.LoadTx
import Verif.Proof.LoadTx1
import Verif.Proof.LoadTx2
import Verif.Proof.LoadTx3
import Verif.Proof.LoadTx4
import Verif.Proof.LoadTx5
import Verif.Proof.LoadTx6
import Verif.Props.LoadTx
import Verif.Spec.Loaded
import Verif.Proof.Loaded1
import Verif.Proof.Loaded2
import Verif.Proof.Loaded3
import Verif.Proof.Loaded4
import Verif.Proof.Loaded5
import Verif.Proof.Loaded6
import Verif.Props.Loaded
import Verif.Spec.Restore
import Verif.Proof.Restore1
import Verif.Proof.Restore2
import Verif.Proof.Restore3
import Verif.Props.Restore
import Verif.Spec.Firewall
import Verif.Proof.Firewall1
import Verif.Proof.Firewall2
import Verif.Proof.Firewall3
import Verif.Props.Firewall
import Verif.Spec.Offender
import Verif.Proof.Offender
import Verif.Proof.Offender2
import Verif.Props.Offender
import Verif.Proof.LoadedDflt
import Verif.Props.LoadedDflt
import Verif.Model.ObjRace
import Verif.Spec.ObjRace
import Verif.Proof.ObjRace
import Verif.Proof.ObjRace2
import Verif.Proof.ObjRace3
import Verif.Proof.ObjRace4
import Verif.Props.ObjRace
import Verif.Proof.LoadedClone
import Verif.Proof.LoadedClone2
import Verif.Props.LoadedClone
import Verif.Spec.OverTime
import Verif.Proof.OverTime1
import Verif.Proof.OverTime2
import Verif.Props.OverTime
import Verif.Spec.Connections
import Verif.Proof.Connections
import Verif.Props.Connections
import Verif.Props.Service
import Verif.Model.Deadline
import Verif.Spec.Deadline
import Verif.Props.Deadline
import Verif.Model.JsonText
import Verif.Spec.JsonText
import Verif.Proof.JsonErr
import Verif.Props.JsonText
import Verif.Proof.JsonNever
import Verif.Props.JsonNever
