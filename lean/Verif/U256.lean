import Verif.Machine

/-!
# `U256`: unsigned 256-bit integers on four 64-bit limbs

Model of `/repo/src/i256/u256.rs`.  Rust arrays `[u64; 4]` are the structure `U256`; the arrays of
5 and 8 words are lists.  Loop counters, shift amounts and bit counts (`usize`, `u32`) are natural
numbers: they never exceed 256 and the subtraction `a - b` on them is only reached with `b ≤ a`
(where the code relies on it we write it as the code does and prove it).
A Rust index out of bounds is a panic (`idx`).
-/

namespace Fixnum

open Res

variable {ε : Type}

/-- Word type `u64`.  `/repo/src/i256/u256.rs:265`. -/
abbrev W64 := BitVec 64

/-- `arr[i]` with Rust's bounds check. Models the indexing expressions of `u256.rs`.  Used at
`/repo/src/i256/u256.rs:303,312,387,395`. -/
def idx {α : Type} (l : List α) (i : Nat) : Res ε α :=
  match l[i]? with
  | some x => .ok x
  | none => .panic

/-- `/repo/src/i256/u256.rs:260-265` (`struct U256([u64; 4])`, little-endian words). -/
@[ext] structure U256 where
  w0 : W64
  w1 : W64
  w2 : W64
  w3 : W64
deriving DecidableEq, Repr

namespace U256

/-- The word array (`self.0`), `/repo/src/i256/u256.rs:265`. -/
def words (x : U256) : List W64 := [x.w0, x.w1, x.w2, x.w3]

/-- Reads four words back into the array type (an array literal of the wrong length does not
type-check in Rust; here it is a panic). Models `$name(ret)` at `/repo/src/i256/u256.rs:56,137,701,728,767`. -/
def ofWords : List W64 → Res ε U256
  | [a, b, c, d] => .ok ⟨a, b, c, d⟩
  | _ => .panic

/-- `/repo/src/i256/u256.rs:317-321` `zero()`, and `Zero::ZERO` `/repo/src/i256/u256.rs:795-797`. -/
def zero : U256 := ⟨0, 0, 0, 0⟩

/-- `bool as u64`, as in `/repo/src/i256/u256.rs:43,52,95`. -/
def b2w (b : Bool) : W64 := if b then 1 else 0

/-- One unrolled iteration of `uint_overflowing_binop!`, `/repo/src/i256/u256.rs:31-53`.
Returns the result word and the new carry. -/
def binopStep (fn : W64 → W64 → W64 × Bool) (a b carry : W64) : W64 × W64 :=
  if carry ≠ 0 then
    let r1 := fn a b
    let r2 := fn r1.1 carry
    (r2.1, b2w r1.2 + b2w r2.2)
  else
    let r := fn a b
    (r.1, b2w r.2)

/-- `uint_overflowing_binop!`, `/repo/src/i256/u256.rs:21-58`, with the loop unrolled as the macro does. -/
def overflowingBinop (fn : W64 → W64 → W64 × Bool) (me you : U256) : U256 × Bool :=
  let r0 := binopStep fn me.w0 you.w0 0
  let r1 := binopStep fn me.w1 you.w1 r0.2
  let r2 := binopStep fn me.w2 you.w2 r1.2
  let r3 := binopStep fn me.w3 you.w3 r2.2
  (⟨r0.1, r1.1, r2.1, r3.1⟩, decide (0 < r3.2.toNat))

/-- `overflowing_add`, `/repo/src/i256/u256.rs:485-495`. -/
def overflowingAdd (x y : U256) : U256 × Bool := overflowingBinop UInt.overflowingAdd x y

/-- `overflowing_sub`, `/repo/src/i256/u256.rs:497-507`. -/
def overflowingSub (x y : U256) : U256 × Bool := overflowingBinop UInt.overflowingSub x y

/-- `split_u128`, `/repo/src/i256/u256.rs:596-598`: `(hi, lo)`. -/
def splitU128 (a : BitVec 128) : W64 × W64 :=
  ((a >>> 64).setWidth 64, (a &&& 0xFFFFFFFFFFFFFFFF#128).setWidth 64)

/-- `split`, `/repo/src/i256/u256.rs:591-593`: `(a >> 32, a & 0xFFFF_FFFF)`. -/
def split (a : W64) : W64 × W64 := (a >>> 32, a &&& 0xFFFFFFFF#64)

/-- Body of the inner unrolled loop of `uint_full_mul_reg!`, `/repo/src/i256/u256.rs:80-105`
(`$check` is `|_, _| true`, `/repo/src/i256/u256.rs:65`). State: `(ret, carry)`. -/
def mulStep (cfg : Cfg) (a b : W64) (k : Nat) (st : List W64 × W64) : Res ε (List W64 × W64) := do
  let ret := st.1
  let carry := st.2
  let prod ← UInt.mul cfg (a.setWidth 128) (b.setWidth 128)
  let hilow := splitU128 prod
  let existingLow ← idx ret k
  let lowo := UInt.overflowingAdd hilow.2 existingLow
  let ret := ret.set k lowo.1
  let existingHi ← idx ret (k + 1)
  let hi ← UInt.add cfg hilow.1 (b2w lowo.2)
  let hio0 := UInt.overflowingAdd hi carry
  let hio1 := UInt.overflowingAdd hio0.1 existingHi
  let ret := ret.set (k + 1) hio1.1
  .ok (ret, b2w (hio0.2 || hio1.2))

/-- One outer iteration of `uint_full_mul_reg!`, `/repo/src/i256/u256.rs:74-107` (`b = you[i]`). -/
def mulRow (cfg : Cfg) (me : U256) (b : W64) (i : Nat) (ret : List W64) :
    Res ε (List W64) := do
  let st ← mulStep cfg me.w0 b (i + 0) (ret, 0)
  let st ← mulStep cfg me.w1 b (i + 1) st
  let st ← mulStep cfg me.w2 b (i + 2) st
  let st ← mulStep cfg me.w3 b (i + 3) st
  .ok st.1

/-- `uint_full_mul_reg!`, `/repo/src/i256/u256.rs:60-113`. -/
def fullMul (cfg : Cfg) (me you : U256) : Res ε (List W64) := do
  let ret : List W64 := [0, 0, 0, 0, 0, 0, 0, 0]
  let ret ← mulRow cfg me you.w0 0 ret
  let ret ← mulRow cfg me you.w1 1 ret
  let ret ← mulRow cfg me you.w2 2 ret
  mulRow cfg me you.w3 3 ret

/-- `overflowing_mul` / `uint_overflowing_mul!`, `/repo/src/i256/u256.rs:115-138,509-513`. -/
def overflowingMul (cfg : Cfg) (x y : U256) : Res ε (U256 × Bool) := do
  let ret ← fullMul cfg x y
  let lo ← ofWords (ret.take 4)
  .ok (lo, (ret.drop 4).any (· != 0))

/-- `impl Mul for U256`, `/repo/src/i256/u256.rs:148-157` with `panic_on_overflow`, `/repo/src/i256/u256.rs:140-144`. -/
def mul (cfg : Cfg) (x y : U256) : Res ε U256 := do
  let (r, overflow) ← overflowingMul cfg x y
  if overflow then .panic else .ok r

/-- `fits_word`, `/repo/src/i256/u256.rs:299-305`. -/
def fitsWord (x : U256) : Bool := x.w1 == 0 && x.w2 == 0 && x.w3 == 0

/-- `bits`, `/repo/src/i256/u256.rs:307-315`. -/
def bits (x : U256) : Nat :=
  if x.w3 ≠ 0 then 256 - UInt.leadingZeros x.w3
  else if x.w2 ≠ 0 then 192 - UInt.leadingZeros x.w2
  else if x.w1 ≠ 0 then 128 - UInt.leadingZeros x.w1
  else 64 - UInt.leadingZeros x.w0

/-- `leading_zeros`, `/repo/src/i256/u256.rs:614-622`. -/
def leadingZeros (x : U256) : Nat :=
  ([x.w3, x.w2, x.w1, x.w0].foldl
    (fun (st : Nat × Bool) chunk =>
      if st.2 then (st.1, true) else (st.1 + UInt.leadingZeros chunk, chunk != 0))
    (0, false)).1

/-- `ret[i] += v` with overflow check, as in `/repo/src/i256/u256.rs:724,763`. -/
def addAt (cfg : Cfg) (ret : List W64) (i : Nat) (v : W64) : Res ε (List W64) := do
  let old ← idx ret i
  let new ← UInt.add cfg old v
  .ok (ret.set i new)

/-- `impl Shl`, `/repo/src/i256/u256.rs:707-730`. `shift.into().as_usize()` of a `u32` is the number itself. -/
def shl (cfg : Cfg) (x : U256) (shift : Nat) : Res ε U256 := do
  let original := x.words
  let wordShift := shift / 64
  let bitShift := shift % 64
  let ret ← (List.range' wordShift (4 - wordShift)).foldlM (fun (ret : List W64) i => do
      let o ← idx original (i - wordShift)
      let s ← UInt.shl cfg o bitShift
      .ok (ret.set i s)) [0, 0, 0, 0]
  let ret ← if 0 < bitShift then
      (List.range' (wordShift + 1) (4 - (wordShift + 1))).foldlM (fun (ret : List W64) i => do
        let o ← idx original (i - 1 - wordShift)
        let s ← UInt.shr cfg o (64 - bitShift)
        addAt cfg ret i s) ret
    else .ok ret
  ofWords ret

/-- `impl Shr`, `/repo/src/i256/u256.rs:744-769`. -/
def shr (cfg : Cfg) (x : U256) (shift : Nat) : Res ε U256 := do
  let original := x.words
  let wordShift := shift / 64
  let bitShift := shift % 64
  let ret ← (List.range' wordShift (4 - wordShift)).foldlM (fun (ret : List W64) i => do
      let o ← idx original i
      let s ← UInt.shr cfg o bitShift
      .ok (ret.set (i - wordShift) s)) [0, 0, 0, 0]
  let ret ← if 0 < bitShift then
      (List.range' (wordShift + 1) (4 - (wordShift + 1))).foldlM (fun (ret : List W64) i => do
        let o ← idx original i
        let s ← UInt.shl cfg o (64 - bitShift)
        addAt cfg ret (i - wordShift - 1) s) ret
    else .ok ret
  ofWords ret

/-- `full_shl`, `/repo/src/i256/u256.rs:323-331`. -/
def fullShl (cfg : Cfg) (x : U256) (shift : Nat) : Res ε (List W64) := do
  debugAssert cfg (decide (shift < 64))
  let uLo ← UInt.shl cfg x.w0 shift
  let uHi ← shr cfg x (64 - shift)
  .ok (uLo :: uHi.words)

/-- One word of `full_shr`, `/repo/src/i256/u256.rs:335-342`: `u[i] >> shift`, and when `shift > 0` the
carry-in `| u[i + 1] << (64 - shift)` (the two loops of the code touch each word once each). -/
def fullShrWord (cfg : Cfg) (u : List W64) (shift i : Nat) : Res ε W64 := do
  let a ← idx u i
  let r ← UInt.shr cfg a shift
  if 0 < shift then do
    let b ← idx u (i + 1)
    let c ← UInt.shl cfg b (64 - shift)
    .ok (r ||| c)
  else .ok r

/-- `full_shr`, `/repo/src/i256/u256.rs:333-346`. -/
def fullShr (cfg : Cfg) (u : List W64) (shift : Nat) : Res ε U256 := do
  debugAssert cfg (decide (shift < 64))
  let r0 ← fullShrWord cfg u shift 0
  let r1 ← fullShrWord cfg u shift 1
  let r2 ← fullShrWord cfg u shift 2
  let r3 ← fullShrWord cfg u shift 3
  .ok ⟨r0, r1, r2, r3⟩

/-- `mul_u64`, `/repo/src/i256/u256.rs:585-588`: `(lo, hi)`. -/
def mulU64 (cfg : Cfg) (a b carry : W64) : Res ε (W64 × W64) := do
  let p ← UInt.mul cfg (a.setWidth 128) (b.setWidth 128)
  let s ← UInt.add cfg p (carry.setWidth 128)
  let hilo := splitU128 s
  .ok (hilo.2, hilo.1)

/-- `overflowing_mul_u64`, `/repo/src/i256/u256.rs:600-612`. -/
def overflowingMulU64 (cfg : Cfg) (x : U256) (other : W64) : Res ε (U256 × W64) := do
  let (r0, c) ← mulU64 cfg x.w0 other 0
  let (r1, c) ← mulU64 cfg x.w1 other c
  let (r2, c) ← mulU64 cfg x.w2 other c
  let (r3, c) ← mulU64 cfg x.w3 other c
  .ok (⟨r0, r1, r2, r3⟩, c)

/-- `full_mul_u64`, `/repo/src/i256/u256.rs:348-354`. -/
def fullMulU64 (cfg : Cfg) (x : U256) (by_ : W64) : Res ε (List W64) := do
  let (prod, carry) ← overflowingMulU64 cfg x by_
  .ok (prod.words ++ [carry])

/-- The `while` loop of `div_mod_word`, `/repo/src/i256/u256.rs:532-538` and `544-550`:
`while q >= TWO32 || q * yn0 > TWO32 * rhat + un { q -= 1; rhat += yn1; if rhat >= TWO32 break }`.
`fuel` bounds the number of iterations; running out is `diverge` (proved unreachable). -/
def dmwLoop (cfg : Cfg) (yn1 yn0 un : W64) : Nat → W64 → W64 → Res ε (W64 × W64)
  | 0, _, _ => .fault .diverge
  | fuel + 1, q, rhat => do
    let again ←
      if decide (2 ^ 32 ≤ q.toNat) then (.ok true : Res ε Bool)
      else do
        let l ← UInt.mul cfg q yn0
        let r ← UInt.mul cfg (BitVec.ofNat 64 (2 ^ 32)) rhat
        let r ← UInt.add cfg r un
        .ok (decide (r.toNat < l.toNat))
    if again then do
      let q ← UInt.sub cfg q 1
      let rhat ← UInt.add cfg rhat yn1
      if 2 ^ 32 ≤ rhat.toNat then .ok (q, rhat)
      else dmwLoop cfg yn1 yn0 un fuel q rhat
    else .ok (q, rhat)

/-- `div_mod_word`, `/repo/src/i256/u256.rs:515-554`: divides `hi·2^64 + lo` by `y`. -/
def divModWord (cfg : Cfg) (hi lo y : W64) : Res ε (W64 × W64) := do
  debugAssert cfg (decide (hi.toNat < y.toNat))
  let two32 : W64 := BitVec.ofNat 64 (2 ^ 32)
  let s := UInt.leadingZeros y
  let y ← UInt.shl cfg y s
  let yn1 := (split y).1
  let yn0 := (split y).2
  let h ← UInt.shl cfg hi s
  -- `lo.checked_shr(64 - s).unwrap_or(0)`
  let l : W64 := if 64 - s < 64 then lo >>> (64 - s) else 0
  let un32 := h ||| l
  let un10 ← UInt.shl cfg lo s
  let un1 := (split un10).1
  let un0 := (split un10).2
  let q1 ← UInt.div un32 yn1
  let t ← UInt.mul cfg q1 yn1
  let rhat ← UInt.sub cfg un32 t
  let (q1, _) ← dmwLoop cfg yn1 yn0 un1 4 q1 rhat
  let un21 := un32 * two32 + un1 - q1 * y
  let q0 ← UInt.div un21 yn1
  let rhat := un21 - q0 * yn1
  let (q0, _) ← dmwLoop cfg yn1 yn0 un0 4 q0 rhat
  let rem := un21 * two32 + un0 - y * q0
  let q ← UInt.mul cfg q1 two32
  let q ← UInt.add cfg q q0
  let r ← UInt.shr cfg rem s
  .ok (q, r)

/-- `div_mod_small`, `/repo/src/i256/u256.rs:356-364`. The remainder word is returned as `rem.into()`. -/
def divModSmall (cfg : Cfg) (x : U256) (other : W64) : Res ε (U256 × U256) := do
  let (q3, rem) ← divModWord cfg 0 x.w3 other
  let (q2, rem) ← divModWord cfg rem x.w2 other
  let (q1, rem) ← divModWord cfg rem x.w1 other
  let (q0, rem) ← divModWord cfg rem x.w0 other
  .ok (⟨q0, q1, q2, q3⟩, ⟨rem, 0, 0, 0⟩)

/-- `binop_carry`, `/repo/src/i256/u256.rs:578-582`. -/
def binopCarry (a b : W64) (c : Bool) (fn : W64 → W64 → W64 × Bool) : W64 × Bool :=
  let r1 := UInt.overflowingAdd b (b2w c)
  let r2 := fn a r1.1
  (r2.1, r1.2 || r2.2)

/-- `binop_slice`, `/repo/src/i256/u256.rs:566-575`: in-place on the common prefix; `a` keeps its tail. -/
def binopSlice (fn : W64 → W64 → W64 × Bool) : List W64 → List W64 → Bool → List W64 × Bool
  | a :: as, b :: bs, c =>
    let r := binopCarry a b c fn
    let rs := binopSlice fn as bs r.2
    (r.1 :: rs.1, rs.2)
  | as, _, c => (as, c)

/-- The `loop` refining `q_hat`, `/repo/src/i256/u256.rs:397-411`. `fuel` as in `dmwLoop`. -/
def qhatLoop (cfg : Cfg) (vn1 vn2 u2 : W64) : Nat → W64 → W64 → Res ε W64
  | 0, _, _ => .fault .diverge
  | fuel + 1, qhat, rhat => do
    let p ← UInt.mul cfg (qhat.setWidth 128) (vn2.setWidth 128)
    let hi := (splitU128 p).1
    let lo := (splitU128 p).2
    -- tuple comparison `(hi, lo) <= (r_hat, u[j + n - 2])`
    if hi.toNat < rhat.toNat ∨ (hi = rhat ∧ lo.toNat ≤ u2.toNat) then .ok qhat
    else do
      let qhat ← UInt.sub cfg qhat 1
      let ro := UInt.overflowingAdd rhat vn1
      if ro.2 then .ok qhat else qhatLoop cfg vn1 vn2 u2 fuel qhat ro.1

/-- Step D3 of `div_mod_knuth`, `/repo/src/i256/u256.rs:388-416`: the trial digit `q_hat`. -/
def knuthQhat (cfg : Cfg) (u : List W64) (n : Nat) (vn1 vn2 : W64) (j : Nat) : Res ε W64 := do
  let ujn ← idx u (j + n)
  if ujn.toNat < vn1.toNat then do
    let u1 ← idx u (j + n - 1)
    let qr ← divModWord cfg ujn u1 vn1
    let u2 ← idx u (j + n - 2)
    qhatLoop cfg vn1 vn2 u2 4 qr.1 qr.2
  else .ok (BitVec.allOnes 64)

/-- One iteration of the main loop of `div_mod_knuth`, `/repo/src/i256/u256.rs:386-440` (steps D3–D6).
State: `(u, q)`. -/
def knuthStep (cfg : Cfg) (v : U256) (n : Nat) (vn1 vn2 : W64) (j : Nat)
    (st : List W64 × List W64) : Res ε (List W64 × List W64) := do
  let u := st.1
  let q := st.2
  let qhat ← knuthQhat cfg u n vn1 vn2 j
  let qhatV ← fullMulU64 cfg v qhat
  let sc := binopSlice UInt.overflowingSub (u.drop j) (qhatV.take (n + 1)) false
  let u := u.take j ++ sc.1
  let uq ←
    if sc.2 then do
      let qhat ← UInt.sub cfg qhat 1
      let sc := binopSlice UInt.overflowingAdd (u.drop j) (v.words.take n) false
      let u := u.take j ++ sc.1
      let x ← idx u (j + n)
      .ok (u.set (j + n) (x + b2w sc.2), qhat)
    else (.ok (u, qhat) : Res ε (List W64 × W64))
  let _ ← idx q j
  .ok (uq.1, q.set j uq.2)

/-- `div_mod_knuth`, `/repo/src/i256/u256.rs:366-447`. -/
def divModKnuth (cfg : Cfg) (x v : U256) (n m : Nat) : Res ε (U256 × U256) := do
  debugAssert cfg (decide (v.bits ≤ x.bits) && !v.fitsWord)
  debugAssert cfg (decide (n + m ≤ 4))
  let vtop ← idx v.words (n - 1)
  let shift := UInt.leadingZeros vtop
  let v ← shl cfg v shift
  let u ← fullShl cfg x shift
  let vn1 ← idx v.words (n - 1)
  let vn2 ← idx v.words (n - 2)
  let (u, q) ← (List.range (m + 1)).reverse.foldlM
    (fun st j => knuthStep cfg v n vn1 vn2 j st) (u, [0, 0, 0, 0])
  let remainder ← fullShr cfg u shift
  let q ← ofWords q
  .ok (q, remainder)

/-- `words`, `/repo/src/i256/u256.rs:449-453`. -/
def wordCount (cfg : Cfg) (bits : Nat) : Res ε Nat := do
  debugAssert cfg (decide (0 < bits))
  .ok (1 + (bits - 1) / 64)

/-- `div_mod`, `/repo/src/i256/u256.rs:460-482`. -/
def divMod (cfg : Cfg) (x other : U256) : Res ε (U256 × U256) := do
  let myBits := x.bits
  let yourBits := other.bits
  rustAssert (decide (yourBits ≠ 0))
  if myBits < yourBits then .ok (zero, x)
  else if yourBits ≤ 64 then divModSmall cfg x other.w0
  else do
    let myWords ← wordCount cfg myBits
    let yourWords ← wordCount cfg yourBits
    divModKnuth cfg x other yourWords (myWords - yourWords)

/-- `impl Div`, `/repo/src/i256/u256.rs:670-677`. -/
def div (cfg : Cfg) (x y : U256) : Res ε U256 := do
  let (q, _) ← divMod cfg x y
  .ok q

/-- `impl Not`, `/repo/src/i256/u256.rs:693-704`. -/
def not (x : U256) : U256 := ⟨~~~x.w0, ~~~x.w1, ~~~x.w2, ~~~x.w3⟩

/-- `impl Ord`, `/repo/src/i256/u256.rs:783-787`: lexicographic comparison from the most significant word. -/
def cmp (x y : U256) : Ordering :=
  (compare x.w3.toNat y.w3.toNat).then <|
  (compare x.w2.toNat y.w2.toNat).then <|
  (compare x.w1.toNat y.w1.toNat).then <|
  (compare x.w0.toNat y.w0.toNat)

/-- `impl TryFrom<U256> for u128`, `/repo/src/i256/u256.rs:633-643`; `none` is the `Err`. -/
def tryToU128 (x : U256) : Option (BitVec 128) :=
  if 128 < 4 * 64 - x.leadingZeros then none
  else some (x.w0.setWidth 128 ||| (x.w1.setWidth 128 <<< 64))

/-- `impl From<u128> for U256`, `/repo/src/i256/u256.rs:645-652`. -/
def ofU128 (v : BitVec 128) : U256 := ⟨v.setWidth 64, (v >>> 64).setWidth 64, 0, 0⟩

/-- The mathematical value of the type at `/repo/src/i256/u256.rs:847-849` (specification function,
models no code). -/
def toNat (x : U256) : Nat :=
  x.w0.toNat + x.w1.toNat * 2 ^ 64 + x.w2.toNat * 2 ^ 128 + x.w3.toNat * 2 ^ 192

end U256

end Fixnum
