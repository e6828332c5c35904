/-!
# Model of `Matrix::SuperFastHash` (libvvhd/src/TMatrix.cpp:109-164)

Bytes are natural numbers below 256 read from `data : Nat → Nat`; `uint32_t` arithmetic is modulo 2^32.
-/
namespace Vvflow.Mat

/-- Conversion to `uint32_t`. -/
def u32 (n : Nat) : Nat := n % 2 ^ 32

/-- `get16bits` (TMatrix.cpp:116-117). -/
def get16 (data : Nat → Nat) (p : Nat) : Nat := data (p + 1) * 256 + data p

/-- A byte read as `signed char`, converted to `uint32_t` (TMatrix.cpp:141, 148). -/
def schar (b : Nat) : Nat := if b < 128 then b else u32 (2 ^ 32 + b - 256)

/-- Main loop (TMatrix.cpp:129-135): `n` blocks of four bytes from position `p`. -/
def hashLoop (data : Nat → Nat) : (n p hash : Nat) → Nat
  | 0, _, hash => hash
  | n + 1, p, hash =>
    let hash := u32 (hash + get16 data p)
    let tmp := u32 (get16 data (p + 2) <<< 11) ^^^ hash
    let hash := u32 (hash <<< 16) ^^^ tmp
    let hash := u32 (hash + hash >>> 11)
    hashLoop data n (p + 4) hash

/-- End cases (TMatrix.cpp:138-151). -/
def hashTail (data : Nat → Nat) (rem p hash : Nat) : Nat :=
  match rem with
  | 3 =>
    let hash := u32 (hash + get16 data p)
    let hash := hash ^^^ u32 (hash <<< 16)
    let hash := hash ^^^ u32 (schar (data (p + 2)) <<< 18)
    u32 (hash + hash >>> 11)
  | 2 =>
    let hash := u32 (hash + get16 data p)
    let hash := hash ^^^ u32 (hash <<< 11)
    u32 (hash + hash >>> 17)
  | 1 =>
    let hash := u32 (hash + schar (data p))
    let hash := hash ^^^ u32 (hash <<< 10)
    u32 (hash + hash >>> 1)
  | _ => hash

/-- Final mixing (TMatrix.cpp:154-159). -/
def hashFinal (hash : Nat) : Nat :=
  let hash := hash ^^^ u32 (hash <<< 3)
  let hash := u32 (hash + hash >>> 5)
  let hash := hash ^^^ u32 (hash <<< 4)
  let hash := u32 (hash + hash >>> 17)
  let hash := hash ^^^ u32 (hash <<< 25)
  u32 (hash + hash >>> 6)

/-- `Matrix::SuperFastHash` (TMatrix.cpp:109-164). -/
def superFastHash (data : Nat → Nat) (len : Int) : Nat :=
  if len ≤ 0 then 0
  else
    let n := len.toNat
    hashFinal (hashTail data (n % 4) (n / 4 * 4) (hashLoop data (n / 4) 0 (u32 n)))

end Vvflow.Mat
