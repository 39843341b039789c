import Verif.Basic
/-! # Endpoints -/
namespace Verif.Endpoint

/-- `struct _u_endpoint`, include/ulfius.h:299–308. The callback is a name, NULL is `none`. -/
structure Endpoint where
  method : Option Bytes
  pfx : Option Bytes
  format : Option Bytes
  priority : Nat
  callback : Option Nat
  userData : Nat
  deriving DecidableEq, Repr, Inhabited

end Verif.Endpoint
