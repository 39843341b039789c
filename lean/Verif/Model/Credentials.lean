import Verif.Model.Answer
/-!
# Model: user and password of a request

The server asks libmicrohttpd for them (src/ulfius.c:633–634); the callbacks of example_programs/auth_example/auth_server.c:73–97 check
them.
-/
namespace Verif.Credentials
open Verif.Message

/-- src/ulfius.c:634; `mhd` is the result of `MHD_basic_auth_get_username_password`. -/
def setCredentials (r : Request) (mhd : Option (Bytes × Bytes)) : Request :=
  { r with user := mhd.map (·.1), password := mhd.map (·.2) }

/-- `callback_auth_basic_body`, auth_server.c:73–84. -/
def authBasicBody (r : Request) (resp : Response) : Int × Response :=
  if r.user.isSome && r.password.isSome && r.user == some b!"test" && r.password == some b!"testpassword" then (Dispatch.cbContinue, resp)
  else (Dispatch.cbUnauthorized, (setStringBody resp 401 (some b!"Error authentication")).2)

/-- `callback_auth_basic`, auth_server.c:89–94. -/
def authBasic (resp : Response) : Int × Response := (Dispatch.cbContinue, (setStringBody resp 200 (some b!"Basic auth callback")).2)

/-- The endpoints of `/auth/basic` in the order of their priority, auth_server.c:142–143, as callbacks of the dispatcher. -/
def basicChain (r : Request) : List (Answer.Callback Unit) :=
  [fun _ w => let (code, resp) := authBasicBody r w.resp; (code, { w with resp := resp }),
   fun _ w => let (code, resp) := authBasic w.resp; (code, { w with resp := resp })]

end Verif.Credentials
