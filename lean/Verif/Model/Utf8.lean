import Verif.Basic
/-!
# Model of `utf8_check`, `src/ulfius.c` lines 1790–1841
-/
namespace Verif.Utf8

/-- The loop of `utf8_check(s_orig, len)`, src/ulfius.c:1794–1840. `i` is the C variable `i`, the list is
the memory from `s` on (to the end of the allocation, which may extend past `len`). The result is the
offset of the returned pointer, or `none` for NULL. Conditions are evaluated in the order of the C
source, so a byte is read only when the code reads it. -/
def checkLoop (len : Nat) : (i : Nat) → (s : Bytes) → Res (Option Nat)
  | i, [] => if i < len then .ub else .ok none
  | i, s0 :: t =>
    if i < len then
      if s0 < 0x80 then checkLoop len (i + 1) t
      else if (s0 &&& 0xe0) == 0xc0 then
        if i + 1 ≥ len then .ok (some i)
        else match t with
          | [] => .ub
          | s1 :: t1 =>
            if (s1 &&& 0xc0) != 0x80 || (s0 &&& 0xfe) == 0xc0 then .ok (some i)
            else checkLoop len (i + 2) t1
      else if (s0 &&& 0xf0) == 0xe0 then
        if i + 2 ≥ len then .ok (some i)
        else match t with
          | [] => .ub
          | s1 :: t1 =>
            if (s1 &&& 0xc0) != 0x80 then .ok (some i)
            else match t1 with
              | [] => .ub
              | s2 :: t2 =>
                if (s2 &&& 0xc0) != 0x80
                    || (s0 == 0xe0 && (s1 &&& 0xe0) == 0x80)
                    || (s0 == 0xed && (s1 &&& 0xe0) == 0xa0)
                    || (s0 == 0xef && s1 == 0xbf && (s2 &&& 0xfe) == 0xbe && s2 != 0xbf && s2 != 0xbe)
                then .ok (some i)
                else checkLoop len (i + 3) t2
      else if (s0 &&& 0xf8) == 0xf0 then
        if i + 3 ≥ len then .ok (some i)
        else match t with
          | [] => .ub
          | s1 :: t1 =>
            if (s1 &&& 0xc0) != 0x80 then .ok (some i)
            else match t1 with
              | [] => .ub
              | s2 :: t2 =>
                if (s2 &&& 0xc0) != 0x80 then .ok (some i)
                else match t2 with
                  | [] => .ub
                  | s3 :: t3 =>
                    if (s3 &&& 0xc0) != 0x80
                        || (s0 == 0xf0 && (s1 &&& 0xf0) == 0x80)
                        || (s0 == 0xf4 && s1 > 0x8f) || s0 > 0xf4
                    then .ok (some i)
                    else checkLoop len (i + 4) t3
      else .ok (some i)
    else .ok none

/-- `utf8_check(s, len)`, src/ulfius.c:1790–1841. -/
def utf8Check (mem : Bytes) (len : Nat) : Res (Option Nat) := checkLoop len 0 mem

/-- The way callers use it on a whole C string: `utf8_check(s, o_strlen(s)) == NULL`. -/
def utf8Ok (s : Bytes) : Bool := utf8Check s s.length == .ok none

end Verif.Utf8
