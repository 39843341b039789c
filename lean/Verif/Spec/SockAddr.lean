import Verif.Basic
/-!
# Specification: socket addresses

How an internet address stands in memory on Linux (`<netinet/in.h>`, little-endian host) and what `inet_ntoa` writes. Independent of
the model.
-/
namespace Verif.Spec.SockAddr

/-- The address of a client. -/
inductive Address
  /-- `port` in network order, four bytes of address -/
  | v4 (port : UInt8 × UInt8) (a b c d : UInt8)
  /-- `flow`, sixteen bytes of address and the scope -/
  | v6 (port : UInt8 × UInt8) (flow : Vector UInt8 4) (addr : Vector UInt8 16) (scope : Vector UInt8 4)
  deriving DecidableEq

/-- `struct sockaddr_in` (16 bytes) or `struct sockaddr_in6` (28 bytes). -/
def Address.bytes : Address → Bytes
  | .v4 p a b c d => [2, 0, p.1, p.2, a, b, c, d] ++ List.replicate 8 0
  | .v6 p f ad s => [10, 0, p.1, p.2] ++ f.toList ++ ad.toList ++ s.toList

/-- What a program reads through a pointer to such a block: `sa_family`, then the structure of that family. Reading behind the end
of the block is undefined. -/
def read (block : Bytes) : Res (Option Address) :=
  match block with
  | 2 :: 0 :: p :: q :: a :: b :: c :: d :: _ => if 16 ≤ block.length then .ok (some (.v4 (p, q) a b c d)) else .ub
  | 10 :: 0 :: p :: q :: t =>
    if h : 24 ≤ t.length then
      .ok (some (.v6 (p, q) ⟨(t.take 4).toArray, by simp; omega⟩ ⟨((t.drop 4).take 16).toArray, by simp; omega⟩
        ⟨((t.drop 20).take 4).toArray, by simp; omega⟩))
    else .ub
  | _ :: _ :: _ => .ok none
  | _ => .ub

/-- A number below 1000 in decimal. -/
def decimal (n : Nat) : Bytes :=
  (if 100 ≤ n then [UInt8.ofNat (0x30 + n / 100)] else []) ++ (if 10 ≤ n then [UInt8.ofNat (0x30 + n / 10 % 10)] else []) ++
    [UInt8.ofNat (0x30 + n % 10)]

/-- `inet_ntoa`: four bytes in decimal, separated by dots. -/
def dotted (a b c d : UInt8) : Bytes :=
  decimal a.toNat ++ b!"." ++ decimal b.toNat ++ b!"." ++ decimal c.toNat ++ b!"." ++ decimal d.toNat

example : dotted 192 168 0 17 = b!"192.168.0.17" := by decide

end Verif.Spec.SockAddr
