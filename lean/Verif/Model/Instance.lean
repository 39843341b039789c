import Verif.Model.Endpoint
/-!
# Model of the life of an instance

`src/ulfius.c` 141–201, 1077–1206, 1253–1424, 1600–1770: initialise, validate, start, stop, clean, and the copy of an
endpoint list.

Built with websockets, GnuTLS and a libmicrohttpd of at least 0.9.53. Allocations and the initialisation of mutexes succeed.
`MHD_start_daemon` is a parameter: it succeeds or it does not. No websocket is active when the server stops (the waiting
is modelled in `Verif.Model.Active`). Pointers to socket addresses are numbers.
-/
namespace Verif.Instance
open Verif.Endpoint (Endpoint emptyEndpoint equals isValid)

/-- Return codes, include/ulfius.h:110–117. -/
inductive Rc where
  | ok | error | memory | params | libmhd
  deriving DecidableEq, Repr, Inhabited

/-- `U_STATUS_STOP`, `U_STATUS_RUNNING`, `U_STATUS_ERROR`, include/ulfius.h:2129–2131. -/
inductive Status where
  | stop | running | error
  deriving DecidableEq, Repr, Inhabited

/-- `U_USE_IPV4`, include/ulfius.h:130. -/
def useIpv4 : Nat := 0x0001
/-- `U_USE_IPV6`, include/ulfius.h:131. -/
def useIpv6 : Nat := 0x0010
/-- `U_USE_ALL`, include/ulfius.h:132. -/
def useAll : Nat := useIpv4 ||| useIpv6

/-- The fields of `struct _u_instance` (include/ulfius.h:316–360) used here. `daemon` is the number of the daemon
`mhd_daemon` points to; `handler` tells whether `websocket_handler` is not NULL. -/
structure Instance where
  daemon : Option Nat
  status : Status
  port : Nat
  bind4 : Option Nat
  bind6 : Option Nat
  network : Nat
  timeout : Nat
  realm : Option Bytes
  ep : Endpoint.Inst
  defaultEp : Option (Nat × Nat)
  certAuth : Bool
  handler : Bool
  deriving DecidableEq, Repr, Inhabited

/-- The entries of the array `mhd_ops`. -/
inductive Opt where
  | logger | completed | sockAddr (a : Option Nat) | uriLog
  | key (p : Bytes) | cert (p : Bytes) | trust (p : Bytes) | timeout (n : Nat) | fin
  deriving DecidableEq, Repr, Inhabited

/-- The flags that depend on the instance. -/
structure Flags where
  ipv6 : Bool := false
  dual : Bool := false
  ssl : Bool := false
  deriving DecidableEq, Repr, Inhabited

/-- What `MHD_start_daemon` is given. -/
structure Daemon where
  flags : Flags
  port : UInt16
  ops : List Opt
  deriving DecidableEq, Repr, Inhabited

/-- The daemons that run, with their numbers. -/
structure Mhd where
  run : List (Nat × Daemon) := []
  fresh : Nat := 0
  deriving DecidableEq, Repr, Inhabited

/-- `internal_ulfius_init_instance`, src/ulfius.c:1672–1752. `u` is what the memory held, `none` for a NULL pointer. -/
def initAny (u : Option Instance) (port : Nat) (bind4 bind6 : Option Nat) (network : Nat) (realm : Option Bytes) :
    Rc × Option Instance :=
  match u with
  | none => (.params, none)
  | some old =>
    if port > 0 && port < 65536 && (bind4.isNone || bind6.isNone) && (network &&& useAll) != 0 then
      (.ok, some { daemon := none, status := .stop, port := port, bind4 := bind4, bind6 := bind6, network := network,
                   timeout := 0, realm := realm, ep := Endpoint.Inst.init, defaultEp := none, certAuth := false,
                   handler := true })
    else (.params, some old)

/-- `ulfius_init_instance`, src/ulfius.c:1754–1756. -/
def init (u : Option Instance) (port : Nat) (bind : Option Nat) (realm : Option Bytes) : Rc × Option Instance :=
  initAny u port bind none useIpv4 realm

/-- `ulfius_init_instance_ipv6`, src/ulfius.c:1759–1765. -/
def initIpv6 (u : Option Instance) (port : Nat) (bind : Option Nat) (network : Nat) (realm : Option Bytes) :
    Rc × Option Instance :=
  if (network &&& useIpv6) != 0 then
    initAny u port none bind (if bind.isSome then useIpv6 else network) realm
  else (.params, u)

/-- The loop of `ulfius_validate_endpoint_list`, src/ulfius.c:170–180; `n` turns left. -/
def validateLoop (l : List Endpoint) : (n i : Nat) → Res Bool
  | 0, _ => .ok true
  | n + 1, i =>
    match l[i]? with
    | none => .ub
    | some e =>
      if i == 0 && equals emptyEndpoint e then .ok false
      else if !isValid e false then .ok false
      else validateLoop l n (i + 1)

/-- `ulfius_validate_instance` with `ulfius_validate_endpoint_list`, src/ulfius.c:167–201, on a non-NULL pointer. -/
def validate (u : Instance) : Res Bool :=
  if u.port == 0 || u.port ≥ 65536 then .ok false
  else match u.ep.list with
    | none => .ok false
    | some l => validateLoop l u.ep.nb 0

/-- `mhd_ops[index].… = …; index++`: the array has nine elements (src/ulfius.c:1092), which are written in order. -/
def putOp (ops : List Opt) (o : Opt) : Res (List Opt) :=
  if ops.length < 9 then .ok (ops ++ [o]) else .ub

/-- The options and flags put together by `ulfius_run_mhd_daemon`, src/ulfius.c:1091–1172. -/
def daemonFor (u : Instance) (key cert ca : Option Bytes) : Res Daemon := do
  let ops ← putOp [] .logger
  let ops ← putOp ops .completed
  let ops ← putOp ops (.sockAddr (if u.bind6.isSome then u.bind6 else u.bind4))
  let flags : Flags :=
    if u.bind6.isSome then { ipv6 := true }
    else if (u.network &&& useIpv4) != 0 && (u.network &&& useIpv6) != 0 then { dual := true }
    else if (u.network &&& useIpv6) != 0 then { ipv6 := true }
    else {}
  let ops ← putOp ops .uriLog
  let (flags, ops) ← match key, cert with
    | some k, some c => do
      let ops ← putOp ops (.key k)
      let ops ← putOp ops (.cert c)
      let ops ← match ca with
        | some a => putOp ops (.trust a)
        | none => .ok ops
      .ok ({ flags with ssl := true }, ops)
    | _, _ => .ok (flags, ops)
  let ops ← if u.timeout > 0 then putOp ops (.timeout u.timeout) else .ok ops
  let ops ← putOp ops .fin
  .ok { flags := flags, port := UInt16.ofNat u.port, ops := ops }

/-- `MHD_start_daemon`: a new daemon, if `up`. -/
def startDaemon (m : Mhd) (d : Daemon) (up : Bool) : Option Nat × Mhd :=
  if up then (some m.fresh, { run := m.run ++ [(m.fresh, d)], fresh := m.fresh + 1 }) else (none, m)

/-- `ulfius_run_mhd_daemon`, src/ulfius.c:1077–1178: NULL if the instance has a daemon. -/
def runDaemon (u : Instance) (m : Mhd) (key cert ca : Option Bytes) (up : Bool) : Res (Option Nat × Mhd) :=
  match u.daemon with
  | some _ => .ok (none, m)
  | none => do
    let d ← daemonFor u key cert ca
    .ok (startDaemon m d up)

/-- The end of the start functions: store the daemon and set the status, src/ulfius.c:1278–1287 and 1304–1312. -/
def started (u : Instance) (d : Option Nat) : Rc × Instance :=
  match d with
  | none => (.libmhd, { u with daemon := none, status := .error })
  | some n => (.ok, { u with daemon := some n, status := .running })

/-- `ulfius_start_secure_ca_trust_framework`, src/ulfius.c:1253–1293. -/
def startSecureCa (u : Option Instance) (m : Mhd) (key cert ca : Option Bytes) (up : Bool) :
    Res (Rc × Option Instance × Mhd) :=
  match u with
  | none => .ok (.params, none, m)
  | some u =>
    if (key.isNone && cert.isSome) || (key.isSome && cert.isNone) then .ok (.params, some u, m)
    else if ca.isSome && (key.isNone || cert.isNone) then .ok (.params, some u, m)
    else do
      let u := { u with certAuth := ca.isSome }
      if ← validate u then
        let (d, m) ← runDaemon u m key cert ca up
        let (rc, u) := started u d
        .ok (rc, some u, m)
      else .ok (.params, some u, m)

/-- `ulfius_start_secure_framework`, src/ulfius.c:1204–1206 (built with GnuTLS). -/
def startSecure (u : Option Instance) (m : Mhd) (key cert : Option Bytes) (up : Bool) := startSecureCa u m key cert none up

/-- `ulfius_start_framework`, src/ulfius.c:1187–1193. -/
def start (u : Option Instance) (m : Mhd) (up : Bool) := startSecureCa u m none none none up

/-- `ulfius_start_framework_with_mhd_options`, src/ulfius.c:1296–1314. -/
def startWith (u : Option Instance) (m : Mhd) (flags : Flags) (ops : Option (List Opt)) (up : Bool) :
    Rc × Option Instance × Mhd :=
  match u, ops with
  | none, _ => (.params, none, m)
  | some u, none => (.params, some u, m)
  | some u, some ops =>
    let (d, m) := startDaemon m { flags := flags, port := UInt16.ofNat u.port, ops := ops } up
    let (rc, u) := started u d
    (rc, some u, m)

/-- `ulfius_stop_framework` without active websockets, src/ulfius.c:1322–1351: it locks a mutex of the websocket handler. -/
def stop (u : Option Instance) (m : Mhd) : Res (Rc × Option Instance × Mhd) :=
  match u with
  | none => .ok (.error, none, m)
  | some u =>
    match u.daemon with
    | some n =>
      if u.handler then
        .ok (.ok, some { u with daemon := none, status := .stop }, { m with run := m.run.filter (fun p => p.1 != n) })
      else .ub
    | none => .ok (.params, some { u with status := .error }, m)

/-- `ulfius_clean_instance`, src/ulfius.c:1645–1668. The daemon, `bind_address6` and `nb_endpoints` stay as they are. -/
def clean (u : Option Instance) : Option Instance :=
  u.map fun u => { u with ep := { u.ep with list := none }, realm := none, bind4 := none, defaultEp := none, handler := false }

/-- `ulfius_set_default_endpoint`, src/ulfius.c:1602–1625: callback and user data. -/
def setDefault (u : Option Instance) (callback : Option Nat) (data : Nat) : Rc × Option Instance :=
  match u, callback with
  | some u, some c => (.ok, some { u with defaultEp := some (c, data) })
  | u, _ => (.params, u)

/-- Sizes on a machine with 8-byte pointers: `sizeof(struct _u_endpoint *)` and `sizeof(struct _u_endpoint)`
(include/ulfius.h:299–308: five pointers and an `unsigned int`, aligned). -/
def ptrSize : Nat := 8
/-- See `ptrSize`. -/
def endpointSize : Nat := 48

/-- The loop of `ulfius_duplicate_endpoint_list`, src/ulfius.c:1384–1391. `copy` is what was copied; before element `i` is
written the block has `(i+1)*sizeof(struct _u_endpoint *)` bytes, and the write of element `i` ends at byte
`(i+1)*sizeof(struct _u_endpoint)`. -/
def duplicateLoop (copy : List Endpoint) : List Endpoint → Res (List Endpoint)
  | [] => .ub
  | e :: t =>
    if e.method.isNone then .ok copy
    else if (copy.length + 1) * endpointSize ≤ (copy.length + 1) * ptrSize then duplicateLoop (copy ++ [e]) t
    else .ub

/-- `ulfius_duplicate_endpoint_list`, src/ulfius.c:1380–1395: NULL if nothing was copied. -/
def duplicate (l : Option (List Endpoint)) : Res (Option (List Endpoint)) :=
  match l with
  | none => .ok none
  | some l => do
    let r ← duplicateLoop [] l
    .ok (if r.isEmpty then none else some r)

end Verif.Instance
