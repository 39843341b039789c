import Verif.Basic
/-!
# Model of the URL codec, `src/ulfius.c` lines 1843–1925

Memory is explicit: the source string is the list of bytes from the current pointer to the end of its
allocation (terminator included), the destination buffer is the list of bytes written so far with its
capacity. Reading past the source or writing past the capacity is `Res.ub`.
`char` is treated as a byte: `* pstr >> 4` followed by `& 15` gives the high nibble for signed and unsigned
`char`; `isalnum`, `isdigit`, `tolower` are those of the C locale (glibc accepts negative `char`).
-/
namespace Verif.UrlCodec

/-- `from_hex`, src/ulfius.c:1846–1848. Arithmetic is modulo 256 (the cast to `char`). -/
def fromHex (ch : UInt8) : UInt8 :=
  if isDigit ch then ch - 0x30 else toLower ch - 0x61 + 10

/-- The table of `to_hex`, src/ulfius.c:1854. -/
def hexTable : Bytes := b!"0123456789ABCDEF"

/-- `to_hex`, src/ulfius.c:1853–1856. -/
def toHex (code : UInt8) : UInt8 := hexTable.getD (code &&& 15).toNat 0

/-- The characters copied unchanged by `ulfius_url_encode`, src/ulfius.c:1872–1874. -/
def safe (c : UInt8) : Bool :=
  isAlnum c || c == 0x24 || c == 0x2d || c == 0x5f || c == 0x2e || c == 0x21 || c == 0x2a
    || c == 0x27 || c == 0x28 || c == 0x29 || c == 0x2c

/-- `* pbuf++ = c` into a buffer of `cap` bytes of which `out` are already written. -/
def write (cap : Nat) (out : Bytes) (c : UInt8) : Res Bytes :=
  if out.length < cap then .ok (out ++ [c]) else .ub

/-- The loop of `ulfius_url_encode`, src/ulfius.c:1870–1882. `mem` is the memory from `pstr` on. -/
def encodeLoop (cap : Nat) : (mem : Bytes) → (out : Bytes) → Res Bytes
  | [], _ => .ub
  | c :: m, out =>
    if c = 0 then write cap out 0
    else if safe c then do
      let out ← write cap out c
      encodeLoop cap m out
    else if c = 0x20 then do
      let out ← write cap out 0x2b
      encodeLoop cap m out
    else do
      let out ← write cap out 0x25
      let out ← write cap out (toHex (c >>> 4))
      let out ← write cap out (toHex (c &&& 15))
      encodeLoop cap m out

/-- `ulfius_url_encode` on a non-NULL string, src/ulfius.c:1864–1890; the result is the buffer with
its terminator. -/
def urlEncodeBuf (s : Bytes) : Res Bytes := encodeLoop (s.length * 3 + 1) (s ++ [0]) []

/-- `ulfius_url_encode` as seen by the caller: NULL for NULL, else a C string. -/
def urlEncode : Option Bytes → Res (Option Bytes)
  | none => .ok none
  | some s => do
    let buf ← urlEncodeBuf s
    .ok (some (cstr buf))

/-- The loop of `ulfius_url_decode`, src/ulfius.c:1904–1917. -/
def decodeLoop (cap : Nat) : (mem : Bytes) → (out : Bytes) → Res Bytes
  | [], _ => .ub
  | c :: m, out =>
    if c = 0 then write cap out 0
    else if c = 0x25 then
      match m with
      | [] => .ub                                   -- reads pstr[1]
      | h1 :: m1 =>
        if h1 = 0 then decodeLoop cap (h1 :: m1) out
        else match m1 with
          | [] => .ub                               -- reads pstr[2]
          | h2 :: m2 =>
            if h2 = 0 then decodeLoop cap (h1 :: h2 :: m2) out
            else do
              let out ← write cap out ((fromHex h1 <<< 4) ||| fromHex h2)
              decodeLoop cap m2 out
    else if c = 0x2b then do
      let out ← write cap out 0x20
      decodeLoop cap m out
    else do
      let out ← write cap out c
      decodeLoop cap m out

/-- `ulfius_url_decode` on a non-NULL string, src/ulfius.c:1898–1925; buffer with terminator. -/
def urlDecodeBuf (s : Bytes) : Res Bytes := decodeLoop (s.length + 1) (s ++ [0]) []

/-- `ulfius_url_decode` as seen by the caller. -/
def urlDecode : Option Bytes → Res (Option Bytes)
  | none => .ok none
  | some s => do
    let buf ← urlDecodeBuf s
    .ok (some (cstr buf))

end Verif.UrlCodec
