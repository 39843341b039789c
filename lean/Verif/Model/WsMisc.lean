import Verif.Basic
/-! # Model: random key and deadline, u_websocket.c:2318–2400

The random source is a list of answers of `gnutls_rnd`: a byte, or a failure. A list that runs out means that the function has not
returned yet. Times are natural numbers: `time_t` and `long` have 64 bits and the clock is far from the end. -/
namespace Verif.WsMisc

/-- Outcome of a draw. -/
inductive Draw (α : Type) where
  /-- returned a value; what is left of the source -/
  | value (a : α) (rest : List (Option UInt8))
  /-- `gnutls_rnd` failed (`*res = 0`) -/
  | failed (rest : List (Option UInt8))
  /-- still drawing -/
  | pending
deriving DecidableEq

/-- The loop and the division of `random_at_most`, u_websocket.c:2362–2376, for the values of lines 2355–2359. -/
def drawLoop (binSize defect : Nat) : List (Option UInt8) → Draw Nat
  | [] => .pending
  | none :: rest => .failed rest
  | some x :: rest => if 0xff - defect ≤ x.toNat then drawLoop binSize defect rest else .value (x.toNat / binSize) rest

/-- `random_at_most(max, &res)`, u_websocket.c:2354–2377 (`max` not negative). Dividing by zero is undefined. -/
def randomAtMost (max : Nat) (src : List (Option UInt8)) : Res (Draw Nat) :=
  let numBins := (max + 1) % 256
  if numBins = 0 then .ub else .ok (drawLoop (0xff / numBins) (0xff % numBins) src)

/-- `charset`, u_websocket.c:2383. -/
def charset : Bytes := b!"abcdefghijklmnopqrstuvwxyzABCDEFGHIJKLMNOPQRSTUVWXYZ0123456789"

/-- `rand_string(str, n)`, u_websocket.c:2382–2400, for `n > 0` and `str` not `NULL`. Reading outside of `charset` is undefined
(the last byte of the array is the terminator). -/
def randString : Nat → List (Option UInt8) → Res (Draw Bytes)
  | 0, src => .ok (.value [] src)
  | n + 1, src => do
    match ← randomAtMost (charset.length + 1 - 2) src with
    | .failed rest => return .failed rest
    | .pending => return .pending
    | .value key rest =>
      match (charset ++ [0])[key]? with
      | none => .ub
      | some c =>
        match ← randString n rest with
        | .value s rest => return .value (c :: s) rest
        | d => return d

/-- `struct timespec`. -/
structure Time where
  sec : Nat
  nsec : Nat
deriving DecidableEq

/-- The absolute time limit of `ulfius_websocket_wait_close`, u_websocket.c:2325–2331. -/
def deadline (now : Time) (timeout : Nat) : Time :=
  let sec := now.sec + timeout / 1000
  let nsec := now.nsec + timeout % 1000 * 1000000
  if 999999999 < nsec then ⟨sec + 1, nsec % 1000000000⟩ else ⟨sec, nsec⟩

end Verif.WsMisc
