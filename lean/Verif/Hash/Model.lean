import Verif.Float.Arith

/-!
Model of `src/hash.cc` (`siphash`) and of the `hash` functors of `include/nanofunctional.h`. Bytes and words are bit vectors. The
buffers `in`, `k`, `out` are lists of exactly the bytes that may be accessed; any other access is undefined (`none`).
-/

namespace Nanostl.Hash

abbrev Byte := BitVec 8
abbrev Word := BitVec 64

/-- `ROTL` (hash.cc:27). -/
def rotl (x : Word) (b : Nat) : Word := (x <<< b) ||| (x >>> (64 - b))

/-- `U32TO8_LE(p, v)` and `U64TO8_LE(p, v)` (hash.cc:29-37): eight byte stores from position `p`. -/
def u64to8 (out : List Byte) (p : Nat) (v : Word) : Option (List Byte) :=
  let lo : BitVec 32 := v.setWidth 32
  let hi : BitVec 32 := (v >>> 32).setWidth 32
  if p + 8 ≤ out.length then
    some (((((((((out.set p (lo.setWidth 8)).set (p + 1) ((lo >>> 8).setWidth 8)).set (p + 2) ((lo >>> 16).setWidth 8)).set (p + 3)
      ((lo >>> 24).setWidth 8)).set (p + 4) (hi.setWidth 8)).set (p + 5) ((hi >>> 8).setWidth 8)).set (p + 6)
      ((hi >>> 16).setWidth 8)).set (p + 7) ((hi >>> 24).setWidth 8)))
  else none

/-- `U8TO64_LE(p)` (hash.cc:39-43). -/
def u8to64 (l : List Byte) (p : Nat) : Option Word := do
  let b0 ← l[p]?
  let b1 ← l[p + 1]?
  let b2 ← l[p + 2]?
  let b3 ← l[p + 3]?
  let b4 ← l[p + 4]?
  let b5 ← l[p + 5]?
  let b6 ← l[p + 6]?
  let b7 ← l[p + 7]?
  pure (b0.setWidth 64 ||| b1.setWidth 64 <<< 8 ||| b2.setWidth 64 <<< 16 ||| b3.setWidth 64 <<< 24 ||| b4.setWidth 64 <<< 32 |||
    b5.setWidth 64 <<< 40 ||| b6.setWidth 64 <<< 48 ||| b7.setWidth 64 <<< 56)

/-- The local variables `v0..v3`. -/
structure V where
  v0 : Word
  v1 : Word
  v2 : Word
  v3 : Word
deriving DecidableEq

/-- `SIPROUND` (hash.cc:45-61), statement by statement. -/
def sipround (v : V) : V :=
  let ⟨v0, v1, v2, v3⟩ := v
  let v0 := v0 + v1
  let v1 := rotl v1 13
  let v1 := v1 ^^^ v0
  let v0 := rotl v0 32
  let v2 := v2 + v3
  let v3 := rotl v3 16
  let v3 := v3 ^^^ v2
  let v0 := v0 + v3
  let v3 := rotl v3 21
  let v3 := v3 ^^^ v0
  let v2 := v2 + v1
  let v1 := rotl v1 17
  let v1 := v1 ^^^ v2
  let v2 := rotl v2 32
  ⟨v0, v1, v2, v3⟩

/-- `for (i = 0; i < n; ++i) SIPROUND;` -/
def rounds : Nat → V → V
  | 0, v => v
  | n + 1, v => rounds n (sipround v)

/-- `v3 ^= m; cROUNDS rounds; v0 ^= m` (hash.cc:100-106, 129-135). -/
def absorb (v : V) (m : Word) : V :=
  let v := { v with v3 := v.v3 ^^^ m }
  let v := rounds 2 v
  { v with v0 := v.v0 ^^^ m }

/-- `for (; in != end; in += 8)` (hash.cc:98-107); `end` is ahead by a multiple of 8, fuel is the number of blocks plus one. -/
def blockLoop (inp : List Byte) (e : Nat) : Nat → Nat → V → Option (V × Nat)
  | 0, _, _ => none
  | f + 1, p, v => if p = e then some (v, p) else do
    let m ← u8to64 inp p
    blockLoop inp e f (p + 8) (absorb v m)

/-- The `switch (left)` falling through its cases (hash.cc:109-127): bytes `left-1, ..., 0` at `p` are or-ed in. -/
def tail (inp : List Byte) (p : Nat) : Nat → Word → Option Word
  | 0, b => some b
  | j + 1, b => do
    let c ← inp[p + j]?
    tail inp p j (b ||| c.setWidth 64 <<< (8 * j))

/-- `siphash` (hash.cc:75-162). The assertion on `outlen` is the only other outcome (`none`). -/
def siphash (inp k out : List Byte) (outlen : Nat) : Option (List Byte) :=
  if outlen = 8 ∨ outlen = 16 then do
    let inlen := inp.length
    let k0 ← u8to64 k 0
    let k1 ← u8to64 k 8
    let e := inlen - inlen % 8
    let left := inlen % 8
    let b : Word := BitVec.ofNat 64 inlen <<< 56
    let v : V := ⟨0x736f6d6570736575#64 ^^^ k0, 0x646f72616e646f6d#64 ^^^ k1, 0x6c7967656e657261#64 ^^^ k0, 0x7465646279746573#64 ^^^ k1⟩
    let v := if outlen = 16 then { v with v1 := v.v1 ^^^ 0xee#64 } else v
    let (v, p) ← blockLoop inp e (inlen + 1) 0 v
    let b ← tail inp p left b
    let v := absorb v b
    let v := if outlen = 16 then { v with v2 := v.v2 ^^^ 0xee#64 } else { v with v2 := v.v2 ^^^ 0xff#64 }
    let v := rounds 4 v
    let out ← u64to8 out 0 (v.v0 ^^^ v.v1 ^^^ v.v2 ^^^ v.v3)
    if outlen = 8 then pure out
    else
      let v := { v with v1 := v.v1 ^^^ 0xdd#64 }
      let v := rounds 4 v
      u64to8 out 8 (v.v0 ^^^ v.v1 ^^^ v.v2 ^^^ v.v3)
  else none

/-! ### `hash` functors; `size_t` has 64 bits -/

/-- `hash<T>` for `bool` and the integral types (nanofunctional.h:54-118): conversion to `size_t`, modulo 2^64. -/
def hashInt (v : Int) : Word := BitVec.ofInt 64 v

/-- `__scalar_hash<T, 0>`, `__scalar_hash<T, 1>` (nanofunctional.h:120-153) on a little-endian machine: the pattern of the value in a
zeroed `size_t`. -/
def scalarHash (bits : Nat) : Word := BitVec.ofNat 64 bits

/-- `hash<float>`, `hash<double>` (nanofunctional.h:155-177); the comparison with `0.0f` is IEEE equality. -/
def hashFloat (φ : Float.Fmt) (x : Nat) : Word := if φ.eq x 0 then 0#64 else scalarHash x

/-- `hash<nullptr_t>` (nanofunctional.h:179-183). -/
def hashNull : Word := 662607004#64

end Nanostl.Hash
