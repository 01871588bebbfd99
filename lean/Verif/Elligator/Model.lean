import Verif.Spiral.PackModel
import Verif.Elligator.Prime

/-!
# Model of the hash to Curve25519

Source: `psi/cryptor/hash_to_curve_elligator2.cc` (all of it), with the callers in
`sodium_curve25519_cryptor.cc`, `ipp_ecc_cryptor.cc` and `ecc_cryptor.cc`.

* A byte string is a list of bytes.  An `MPInt` is an `Int`; it may be negative, as in the code.
* `MPInt::MulMod`, `AddMod`, `SubMod`, `PowMod` and `Mod` give the residue in `[0, p)`.
* `MPInt::InvertMod` throws for a multiple of `p`.
* SHA-512 is a parameter of the model.
* A thrown exception (`YACL_ENFORCE`, failed inversion) is `Res.throws`.
-/

namespace Psi.Elligator

open Psi.Spiral (Res)

abbrev Bytes := List UInt8

/-! ## Numbers and bytes -/

/-- `MPInt::FromMagBytes(buf, Endian::big)`: the value of a big-endian byte string. -/
def beVal (b : Bytes) : Nat := b.foldl (fun a x => a * 256 + x.toNat) 0

/-- `MPInt::FromMagBytes(buf, Endian::little)`. -/
def leVal (b : Bytes) : Nat := beVal b.reverse

/-- The `k` low bytes of `n`, the most significant first. -/
def be : Nat → Nat → Bytes
  | 0, _ => []
  | k + 1, n => be k (n / 256) ++ [UInt8.ofNat n]

/-- `kEccKeySize`: `hash_to_curve_elligator2.cc:31`. -/
def keySize : Nat := 32

/-- `p_bytes`: `hash_to_curve_elligator2.cc:35-38`. -/
def pBytes : Bytes :=
  [0xed, 0xff, 0xff, 0xff, 0xff, 0xff, 0xff, 0xff, 0xff, 0xff, 0xff,
   0xff, 0xff, 0xff, 0xff, 0xff, 0xff, 0xff, 0xff, 0xff, 0xff, 0xff,
   0xff, 0xff, 0xff, 0xff, 0xff, 0xff, 0xff, 0xff, 0xff, 0x7f]

/-- `c2_bytes`: `hash_to_curve_elligator2.cc:47-50`. -/
def c2Bytes : Bytes :=
  [0xb1, 0xa0, 0xe,  0x4a, 0x27, 0x1b, 0xee, 0xc4, 0x78, 0xe4, 0x2f,
   0xad, 0x6,  0x18, 0x43, 0x2f, 0xa7, 0xd7, 0xfb, 0x3d, 0x99, 0x0,
   0x4d, 0x2b, 0xb,  0xdf, 0xc1, 0x4f, 0x80, 0x24, 0x83, 0x2b]

/-- `sqrtm1_bytes`: `hash_to_curve_elligator2.cc:53-56`. -/
def sqrtm1Bytes : Bytes :=
  [0x3d, 0x5f, 0xf1, 0xb5, 0xd8, 0xe4, 0x11, 0x3b, 0x87, 0x1b, 0xd0,
   0x52, 0xf9, 0xe7, 0xbc, 0xd0, 0x58, 0x28, 0x4,  0xc2, 0x66, 0xff,
   0xb2, 0xd4, 0xf4, 0x20, 0x3e, 0xb0, 0x7f, 0xdb, 0x7c, 0x54]

/-- `c4_bytes`: `hash_to_curve_elligator2.cc:59-62`. -/
def c4Bytes : Bytes :=
  [0xfd, 0xff, 0xff, 0xff, 0xff, 0xff, 0xff, 0xff, 0xff, 0xff, 0xff,
   0xff, 0xff, 0xff, 0xff, 0xff, 0xff, 0xff, 0xff, 0xff, 0xff, 0xff,
   0xff, 0xff, 0xff, 0xff, 0xff, 0xff, 0xff, 0xff, 0xff, 0xf]

/-- `k25519J`: `hash_to_curve_elligator2.cc:84`. -/
def kJ : Int := 486662

/-- `kMp25519`, `kMpSqrtm1`, `kMpC2`, `kMpC4`: `hash_to_curve_elligator2.cc:90-100`.  (`kMpC1` is
not used by any function.) -/
@[irreducible] def kP : Nat := leVal pBytes
def kSqrtm1 : Int := leVal sqrtm1Bytes
def kC2 : Int := leVal c2Bytes
def kC4 : Int := leVal c4Bytes

/-- `MPInt::Mod`. -/
def redMod (a : Int) : Int := a % (kP : Int)

/-- `MPInt::MulMod`. -/
def mulMod (a b : Int) : Int := a * b % (kP : Int)

/-- `MPInt::AddMod`. -/
def addMod (a b : Int) : Int := (a + b) % (kP : Int)

/-- `MPInt::SubMod`. -/
def subMod (a b : Int) : Int := (a - b) % (kP : Int)

/-- `MPInt::PowMod`, by repeated squaring. -/
def powMod (a e : Int) : Int := pw kP (redMod a).toNat e.toNat

/-- `MPInt::InvertMod`.  It fails for a multiple of `p`.  Otherwise the inverse is taken as the power
`p - 2`; `invMod_mul` proves that it is the inverse. -/
def invMod (a : Int) : Res Int :=
  if redMod a = 0 then .throws else .ok (powMod a (kP - 2))

/-- `MPIntToBytesWithPad` into a buffer of 32 zero bytes: `hash_to_curve_elligator2.cc:74-82`.  The
bytes are those of the magnitude, the sign is dropped. -/
def toBytes (a : Int) : Res Bytes :=
  if a.natAbs < 256 ^ keySize then .ok (be keySize a.natAbs) else .throws

/-! ## Hash to the field -/

/-- `I2OSP`: `hash_to_curve_elligator2.cc:110-122`, for `xlen ≤ 8` as in every call. -/
def i2osp (x xlen : Nat) : Res Bytes :=
  if x < 256 ^ xlen then .ok (be xlen x) else .throws

/-- The loop at `hash_to_curve_elligator2.cc:173-184`.  `n` iterations are left and `i` is the
counter; `bi` and `ret` are the variables of the same name. -/
def expandLoop (H : Bytes → Bytes) (b0 dstPrime : Bytes) : Nat → Nat → Bytes → Bytes → Bytes
  | 0, _, _, ret => ret
  | n + 1, i, bi, ret =>
    let b := H (List.zipWith (· ^^^ ·) bi b0 ++ [UInt8.ofNat i] ++ dstPrime)
    expandLoop H b0 dstPrime n (i + 1) b (ret ++ b)

/-- `std::vector::resize`: cut off, or filled up with zeros. -/
def resize (n : Nat) (b : Bytes) : Bytes := b.take n ++ List.replicate (n - b.length) 0

/-- `ExpandMessageXmd`: `hash_to_curve_elligator2.cc:125-188`.  `H` is SHA-512, whose digest has 64
bytes. -/
def expand (H : Bytes → Bytes) (msg dst : Bytes) (len : Nat) : Res Bytes := do
  let ell := (len + 63) / 64
  if ¬ ell ≤ 255 then .throws
  else if ¬ len ≤ 65535 then .throws
  else if ¬ 16 ≤ dst.length then .throws
  else if ¬ dst.length ≤ 255 then .throws
  else do
    let dstLen ← i2osp dst.length 1
    let dstPrime := dst ++ dstLen
    let zPad : Bytes := List.replicate 128 0
    let lib ← i2osp len 2
    let b0 := H (zPad ++ msg ++ lib ++ [0] ++ dstPrime)
    let b1 := H (b0 ++ [1] ++ dstPrime)
    .ok (resize len (expandLoop H b0 dstPrime (ell - 1) 2 b1 b1))

/-- `L` of `HashToField`: `hash_to_curve_elligator2.cc:194`. -/
def fieldLen : Nat := 48

/-- `HashToField`: `hash_to_curve_elligator2.cc:191-216`. -/
def hashToField (H : Bytes → Bytes) (msg : Bytes) (count : Nat) (dst : Bytes) :
    Res (List Bytes) := do
  let uniform ← expand H msg dst (count * fieldLen)
  Psi.Spiral.mapRes (fun i =>
    toBytes (redMod (beVal ((uniform.drop (fieldLen * i)).take fieldLen)))) (List.range count)

/-! ## Map to the curve -/

/-- `IsSquare`: `hash_to_curve_elligator2.cc:218-230`. -/
def isSquare (v : Int) : Res Bool := do
  let t1 := subMod kP 1
  let t2 ← invMod 2
  let t3 := mulMod t1 t2
  let t4 := powMod v t3
  .ok (t4 == 1 || t4 == 0)

/-- `Curve25519Sqrt`: `hash_to_curve_elligator2.cc:233-250`. -/
def sqrt (v : Int) : Int :=
  let c2 : Int := (kP + 3) / 8
  let tv1 := powMod v c2
  let tv2 := mulMod tv1 kSqrtm1
  if mulMod tv1 tv1 = v then tv1 else tv2

/-- `Curve25519Sgn0`: `hash_to_curve_elligator2.cc:252-263`.  `MPInt::Div` truncates. -/
def sgn0 (v : Int) : Bool := !(v.tmod 2 == 0)

/-- The lines that bring `y` to the right sign: `hash_to_curve_elligator2.cc:359-364` and
`449-452`. -/
def setSign (flip : Bool) (y : Int) : Int :=
  let y := if flip then -y else y
  if y < 0 then addMod y kP else y

/-- `tv1`, `xd`, `gxd`, `gx1` of `MapToCurveG2`, steps 1 to 10:
`hash_to_curve_elligator2.cc:274-296`. -/
def g2Start (u : Int) : Int × Int × Int × Int :=
  let tv1 := mulMod u u
  let tv1 := mulMod tv1 2
  let xd := addMod tv1 1
  let x1n := -kJ
  let tv2 := mulMod xd xd
  let gxd := mulMod tv2 xd
  let gx1 := mulMod kJ tv1
  let gx1 := mulMod gx1 x1n
  let gx1 := addMod gx1 tv2
  let gx1 := mulMod gx1 x1n
  (tv1, xd, gxd, gx1)

/-- `y11` of `MapToCurveG2`, steps 11 to 17: `hash_to_curve_elligator2.cc:298-309`. -/
def g2Y11 (gxd gx1 : Int) : Int :=
  let tv3 := mulMod gxd gxd
  let tv2 := mulMod tv3 tv3
  let tv3 := mulMod tv3 gxd
  let tv3 := mulMod tv3 gx1
  let tv2 := mulMod tv2 tv3
  let y11 := powMod tv2 kC4
  mulMod y11 tv3

/-- A choice between two roots, steps 18 to 22 and 28 to 31: `hash_to_curve_elligator2.cc:311-323`
and `327-341`. -/
def g2Pick (y gxd g : Int) : Int :=
  let y' := mulMod y kSqrtm1
  let tv2 := mulMod (mulMod y y) gxd
  if tv2 = g then y else y'

/-- `MapToCurveG2`: `hash_to_curve_elligator2.cc:266-376`. -/
def mapG2 (ubuf : Bytes) : Res (Bytes × Bytes) :=
  if ¬ ubuf.length > 0 then .throws else do
  let u : Int := beVal ubuf
  let s := g2Start u
  let tv1 := s.1
  let xd := s.2.1
  let gxd := s.2.2.1
  let gx1 := s.2.2.2
  let x1n := -kJ
  let y11 := g2Y11 gxd gx1
  let y1 := g2Pick y11 gxd gx1
  let x2n := mulMod x1n tv1
  let y21 := mulMod y11 u
  let y21 := mulMod y21 kC2
  let gx2 := mulMod gx1 tv1
  let y2 := g2Pick y21 gxd gx2
  let tv2 := mulMod (mulMod y1 y1) gxd
  let e3 := tv2 == gx1
  let xn := if e3 then x1n else x2n
  let y := if e3 then y1 else y2
  let e4 := sgn0 y
  let y := setSign (e3 != e4) y
  let xd1 ← invMod xd
  let xn := mulMod xn xd1
  let xb ← toBytes xn
  let yb ← toBytes y
  .ok (xb, yb)

/-- `MapToCurveElligator2`: `hash_to_curve_elligator2.cc:379-462`.  Nothing calls it. -/
def mapF3 (ubuf : Bytes) : Res (Bytes × Bytes) := do
  let c1 := kJ
  let c2 : Int := 1
  let u : Int := beVal ubuf
  let neg1 : Int := -1
  let tv1 := mulMod u u
  let tv1 := mulMod tv1 2
  let tv1 := if tv1 = neg1 then 0 else tv1
  let x2 := addMod tv1 1
  let x1 ← invMod x2
  let negC1 := -c1
  let x1 := mulMod x1 negC1
  let gx1 := addMod x1 c1
  let gx1 := mulMod gx1 x1
  let gx1 := addMod gx1 c2
  let gx1 := mulMod gx1 x1
  let x2 := addMod (-x1) negC1
  let gx2 := mulMod gx1 tv1
  let e2 ← isSquare gx1
  let x := if e2 then x1 else x2
  let y2 := if e2 then gx1 else gx2
  let y := sqrt y2
  let e3 := sgn0 y
  let y := if e2 != e3 then setSign true y else y
  let xb ← toBytes x
  let yb ← toBytes y
  .ok (xb, yb)

/-! ## Points -/

/-- `PointAdd`: `hash_to_curve_elligator2.cc:473-523`.  The arguments have 32 bytes each. -/
def pointAdd (pxb pyb qxb qyb : Bytes) : Res (Bytes × Bytes) :=
  if ¬ (pxb ≠ qxb ∨ pyb ≠ qyb) then .throws else do
  let px : Int := beVal pxb
  let py : Int := beVal pyb
  let qx : Int := beVal qxb
  let qy : Int := beVal qyb
  let s1 := subMod qx px
  let s2 := subMod qy py
  let d ← invMod s1
  let l := mulMod s2 d
  let l2 := mulMod l l
  let t1 := subMod l2 kJ
  let t2 := subMod t1 px
  let tx := subMod t2 qx
  let tx := if tx < 0 then addMod tx kP else tx
  let l3 := mulMod l2 l
  let t1 := mulMod px 2
  let t2 := addMod t1 qx
  let t1 := addMod t2 kJ
  let t2 := mulMod t1 l
  let t1 := subMod t2 l3
  let ty := subMod t1 py
  let ty := if ty < 0 then addMod ty kP else ty
  let xb ← toBytes tx
  let yb ← toBytes ty
  .ok (xb, yb)

/-- `PointAddX`: `hash_to_curve_elligator2.cc:526-560`. -/
def pointAddX (pxb pyb qxb qyb : Bytes) : Res Bytes :=
  if ¬ (pxb ≠ qxb ∨ pyb ≠ qyb) then .throws else do
  let px : Int := beVal pxb
  let py : Int := beVal pyb
  let qx : Int := beVal qxb
  let qy : Int := beVal qyb
  let s1 := subMod qx px
  let s2 := subMod qy py
  let d ← invMod s1
  let l := mulMod s2 d
  let l2 := mulMod l l
  let t1 := subMod l2 kJ
  let t2 := subMod t1 px
  let tx := subMod t2 qx
  let tx := if tx < 0 then addMod tx kP else tx
  toBytes tx

/-- `PointDbl`: `hash_to_curve_elligator2.cc:563-604`. -/
def pointDbl (pxb pyb : Bytes) : Res (Bytes × Bytes) := do
  let px : Int := beVal pxb
  let py : Int := beVal pyb
  let px2 := mulMod px px
  let px3 := mulMod px2 3
  let ax := mulMod px kJ
  let ax2 := mulMod ax 2
  let px2 := addMod px3 ax2
  let ax := addMod px2 1
  let y2 := mulMod py 2
  let d ← invMod y2
  let l := mulMod ax d
  let l2 := powMod l 2
  let l3 := powMod l 3
  let xt1 := subMod l2 kJ
  let x2 := mulMod px 2
  let tx := subMod xt1 x2
  let x3 := mulMod px 3
  let xt1 := addMod x3 kJ
  let d := mulMod xt1 l
  let xt1 := subMod d l3
  let ty := subMod xt1 py
  let xb ← toBytes tx
  let yb ← toBytes ty
  .ok (xb, yb)

/-- `PointDblProjective`: `hash_to_curve_elligator2.cc:609-633`. -/
def pointDblX (pxb : Bytes) : Res Bytes := do
  let px : Int := beVal pxb
  let px2 := mulMod px px
  let px21 := subMod px2 1
  let px22 := mulMod px21 px21
  let pxa := mulMod px kJ
  let pz1 := addMod (addMod px2 pxa) 1
  let pz2 := mulMod pz1 px
  let pz1 := mulMod pz2 4
  let pz2 ← invMod pz1
  let px := mulMod px22 pz2
  toBytes px

/-- `PointClearCofactorProjective`: `hash_to_curve_elligator2.cc:635-645`. -/
def clearX (pxb : Bytes) : Res Bytes := do
  let x2 ← pointDblX pxb
  let x4 ← pointDblX x2
  pointDblX x4

/-- `PointClearCofactor`: `hash_to_curve_elligator2.cc:647-667`. -/
def clear (pxb pyb : Bytes) : Res (Bytes × Bytes) := do
  let p2 ← pointDbl pxb pyb
  let p4 ← pointDbl p2.1 p2.2
  pointDbl p4.1 p4.2

/-- `CheckPoint`: `hash_to_curve_elligator2.cc:669-683`. -/
def checkPoint (xb yb : Bytes) : Bool :=
  let x : Int := beVal xb
  let y : Int := beVal yb
  let x3 := powMod x 3
  let x2 := powMod x 2
  let ax2 := mulMod x2 kJ
  let x3ax2 := addMod x3 ax2
  let x3ax2x := addMod x3ax2 x
  let y2 := powMod y 2
  x3ax2x == y2

/-! ## The hash -/

/-- `HashToCurveElligator2`: `hash_to_curve_elligator2.cc:687-705`. -/
def hashToCurve (H : Bytes → Bytes) (msg dst : Bytes) : Res Bytes :=
  if ¬ (16 ≤ dst.length ∧ dst.length ≤ 255) then .throws else do
  let u ← hashToField H msg 2 dst
  let q0 ← mapG2 (u.getD 0 [])
  let q1 ← mapG2 (u.getD 1 [])
  let px1 ← pointAddX q0.1 q0.2 q1.1 q1.2
  clearX px1

/-- The default tag: `hash_to_curve_elligator2.h:37-38`. -/
def defaultDst : Bytes := "SECRETFLOW-V01-CS02-with-curve25519_XMD:SHA-512_ELL2_RO_".toUTF8.toList

/-- The coordinate that X25519 takes from 32 bytes (RFC 7748, section 5): the number in little-endian
order without its top bit.  The masks go through `crypto_scalarmult` of libsodium (the group
`Curve25519` of `sodium_curve25519_cryptor.h:53-54`, called at `ecc_cryptor.cc:38-42`) or
`mbx_x25519_mb8` (`ipp_ecc_cryptor.cc:55-56`), which both read their point so. -/
def x25519Coord (b : Bytes) : Nat := leVal b % 2 ^ 255

end Psi.Elligator
