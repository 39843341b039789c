import Verif.Model.Message
/-!
# Model of the client certificate of a request

`request->client_cert` through src/ulfius.c:502–523 (the dispatcher looks at the TLS session), src/u_request.c (copy, export, import, clean) and the
callback of example_programs/auth_example/auth_server.c. A certificate object of GnuTLS is a place in a list; what it holds is the certificate
in a canonical form. GnuTLS is a parameter: whether `gnutls_x509_crt_init` succeeds (it writes NULL when it fails), what the parsers make of a text.
The use of an object after `gnutls_x509_crt_deinit` is undefined. The rest of the request is in `Verif.Message`. PEM texts have no NUL.
-/
namespace Verif.Cert
open Verif.Message (Response setStringBody)

/-- A `struct gnutls_x509_crt_int`: made, filled, freed. -/
inductive Obj where
  | empty
  | holds (c : Bytes)
  | gone
  deriving DecidableEq, Repr

abbrev Heap := List Obj

/-- Return values: U_OK, U_ERROR, U_ERROR_PARAMS. -/
inductive Rc where
  | ok | error | params
  deriving DecidableEq, Repr

/-- `request->client_cert`. -/
abbrev Ptr := Option Nat

/-- GnuTLS. -/
structure Gnutls where
  init : Nat → Bool                -- gnutls_x509_crt_init, when so many objects have been made
  der : Bytes → Option Bytes       -- gnutls_x509_crt_import, GNUTLS_X509_FMT_DER
  pem : Bytes → Option Bytes       -- gnutls_x509_crt_export2, GNUTLS_X509_FMT_PEM
  unpem : Bytes → Option Bytes     -- gnutls_x509_crt_import, GNUTLS_X509_FMT_PEM

/-- `gnutls_x509_crt_init(&p)`: success, heap, the new pointer. -/
def crtInit (G : Gnutls) (h : Heap) : Bool × Heap × Ptr :=
  if G.init h.length then (true, h ++ [.empty], some h.length) else (false, h, none)

/-- `gnutls_x509_crt_import`, with what the parser makes of the data. -/
def crtImport (h : Heap) (p : Ptr) (parsed : Option Bytes) : Res (Bool × Heap) :=
  match p with
  | none => .ok (false, h)
  | some i => match h[i]?, parsed with
    | some .empty, some c => .ok (true, h.set i (.holds c))
    | some (.holds _), some c => .ok (true, h.set i (.holds c))
    | some .empty, none => .ok (false, h)
    | some (.holds _), none => .ok (false, h)
    | _, _ => .ub

/-- `gnutls_x509_crt_deinit`: NULL is allowed. -/
def crtDeinit (h : Heap) (p : Ptr) : Res Heap :=
  match p with
  | none => .ok h
  | some i => match h[i]? with
    | some .empty => .ok (h.set i .gone)
    | some (.holds _) => .ok (h.set i .gone)
    | _ => .ub

/-- What GnuTLS knows of the other side: whether the connection is encrypted at all, the result of `gnutls_certificate_verify_peers2`, the
status it writes, the certificates of the peer. -/
structure Peer where
  tls : Bool
  verify : Int
  status : Nat
  chain : List Bytes

/-- GNUTLS_E_NO_CERTIFICATE_FOUND -/
def noCertificate : Int := -49

/-- The first call of the dispatcher for a request, ulfius.c:502–523, on a request as `ulfius_init_request` leaves it (`client_cert == NULL`,
u_request.c:305). When the import fails the object is freed and the pointer stays. -/
def admit (G : Gnutls) (use : Bool) (peer : Peer) (h : Heap) : Res (Heap × Ptr) :=
  if peer.tls && use then
    if (peer.verify ≠ 0 ∧ peer.verify ≠ noCertificate) ∨ peer.status ≠ 0 then .ok (h, none)
    else if peer.verify = 0 then
      match peer.chain with
      | [] => .ok (h, none)
      | first :: _ =>
        match crtInit G h with
        | (false, h, p) => .ok (h, p)
        | (true, h, p) => do
          let (ok, h) ← crtImport h p (G.der first)
          if ok then return (h, p)
          else do
            let h ← crtDeinit h p
            return (h, p)
    else .ok (h, none)
  else .ok (h, none)

/-- `ulfius_export_client_certificate_pem`, u_request.c:1008–1023. -/
def exportPem (G : Gnutls) (h : Heap) (p : Ptr) : Res (Option Bytes) :=
  match p with
  | none => .ok none
  | some i => match h[i]? with
    | some .empty => .ok none
    | some (.holds c) => .ok (G.pem c)
    | _ => .ub

/-- `ulfius_import_client_certificate_pem`, u_request.c:1032–1055: what `client_cert` pointed to before is forgotten. -/
def importPem (G : Gnutls) (h : Heap) (p : Ptr) (text : Option Bytes) : Res (Rc × Heap × Ptr) :=
  match text with
  | none => .ok (.params, h, p)
  | some t =>
    match crtInit G h with
    | (false, h, p) => .ok (.error, h, p)
    | (true, h, p) => do
      let (ok, h) ← crtImport h p (G.unpem t)
      return (if ok then .ok else .error, h, p)

/-- The part of `ulfius_copy_request` for a new request, u_request.c:469–481: the object is made here and once more in
`ulfius_import_client_certificate_pem`. -/
def copyCert (G : Gnutls) (h : Heap) (src : Ptr) : Res (Rc × Heap × Ptr) :=
  match src with
  | none => .ok (.ok, h, none)
  | some _ =>
    match crtInit G h with
    | (false, h, p) => .ok (.error, h, p)
    | (true, h, p) => do
      let t ← exportPem G h src
      let (rc, h, p) ← importPem G h p t
      return (if rc = .ok then .ok else .error, h, p)

/-- `ulfius_clean_request`, u_request.c:350. -/
def clean (h : Heap) (p : Ptr) : Res Heap := crtDeinit h p

/-- `ulfius_duplicate_request`, u_request.c:767–790: a copy that failed is cleaned; `none` is NULL. -/
def duplicate (G : Gnutls) (h : Heap) (src : Ptr) : Res (Heap × Option Ptr) := do
  let (rc, h, p) ← copyCert G h src
  if rc = .ok then return (h, some p)
  else do
    let h ← clean h p
    return (h, none)

/-! ## A server at work -/

/-- What happens to requests: one comes in, one is duplicated (by the program or for a websocket, ulfius.c:741), a certificate is put into one, one is
cleaned. Requests have numbers in the order they come into being. -/
inductive Act where
  | admit (peer : Peer)
  | duplicate (r : Nat)
  | importPem (r : Nat) (text : Bytes)
  | clean (r : Nat)

/-- The objects, and the certificate pointers of the requests; `none` is a request that was cleaned or never made. -/
structure Srv where
  heap : Heap := []
  reqs : List (Option Ptr) := []

/-- One thing happens; calls with requests that do not exist are not made. -/
def step (G : Gnutls) (use : Bool) (s : Srv) : Act → Res Srv
  | .admit peer => do
    let (h, p) ← admit G use peer s.heap
    return ⟨h, s.reqs ++ [some p]⟩
  | .duplicate r =>
    match s.reqs[r]? with
    | some (some p) => do
      let (h, q) ← duplicate G s.heap p
      return ⟨h, s.reqs ++ [q]⟩
    | _ => .ok s
  | .importPem r t =>
    match s.reqs[r]? with
    | some (some p) => do
      let (_, h, q) ← importPem G s.heap p (some t)
      return ⟨h, s.reqs.set r (some q)⟩
    | _ => .ok s
  | .clean r =>
    match s.reqs[r]? with
    | some (some p) => do
      let h ← clean s.heap p
      return ⟨h, s.reqs.set r none⟩
    | _ => .ok s

def exec (G : Gnutls) (use : Bool) (s : Srv) : List Act → Res Srv
  | [] => .ok s
  | a :: t => do exec G use (← step G use s a) t

/-- What a callback finds behind the pointer: nothing, a certificate, an empty one, or freed memory. -/
def look (h : Heap) (p : Ptr) : Res (Option (Option Bytes)) :=
  match p with
  | none => .ok none
  | some i => match h[i]? with
    | some .empty => .ok (some none)
    | some (.holds c) => .ok (some (some c))
    | _ => .ub

/-- `callback_auth_client_cert`, auth_server.c:100–127: the distinguished names of the subject and the issuer are functions of the certificate, texts
without NUL; those of an empty certificate are empty (`lbuf` stays 0). -/
def certCallback (dn issuer : Bytes → Bytes) (h : Heap) (p : Ptr) (r : Response) : Res (Int × Response) := do
  match ← look h p with
  | none => return (0, (setStringBody r 400 (some b!"Invalid client certificate")).2)
  | some c =>
    let text := b!"client dn: '" ++ (c.map dn).getD [] ++ b!"', ussued by: '" ++ (c.map issuer).getD [] ++ b!"'"
    return (0, (setStringBody r 200 (some text)).2)

end Verif.Cert
