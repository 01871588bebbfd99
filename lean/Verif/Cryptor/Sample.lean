import Verif.Cryptor.Props

/-! # C110: examples -/

namespace Psi.Cryptor

open Psi.Spiral (Res mapRes)

/-- A library where masking adds a byte to all bytes. -/
def toyLib : Lib Bytes where
  mul key p := if p.length = 32 then some (p.map fun b => (b + key.headD 0) % 256) else none
  ser p := p
  de b := if b.length = 32 then some b else none

/-- Points that differ by multiples of 256 only. -/
def toySame (p q : Bytes) : Prop := (p.map fun b => b % 256) = q.map fun b => b % 256

theorem map_add_iff (a : Nat) (p q : Bytes) :
    (p.map fun b => (b + a) % 256) = (q.map fun b => (b + a) % 256) ↔ toySame p q := by
  unfold toySame
  induction p generalizing q with
  | nil => cases q <;> simp
  | cons x p ih =>
    cases q with
    | nil => simp
    | cons y q =>
      simp only [List.map_cons, List.cons.injEq, ih q]
      constructor
      · rintro ⟨h1, h2⟩
        exact ⟨by omega, h2⟩
      · rintro ⟨h1, h2⟩
        exact ⟨by omega, h2⟩

theorem toyLib_mul {a p r : Bytes} (h : toyLib.mul a p = some r) : p.length = 32 ∧ r = p.map fun b => (b + a.headD 0) % 256 := by
  unfold toyLib at h
  by_cases hp : p.length = 32
  · simp [hp] at h
    exact ⟨hp, by rw [← h]; simp⟩
  · simp [hp] at h

theorem toyLib_good : Spec.Good toyLib toySame where
  comm a b p := by
    by_cases hp : p.length = 32
    · simp only [toyLib, hp, if_true, Option.bind_some, List.length_map, List.map_map, Option.some.injEq]
      apply List.map_congr_left
      intro x _
      simp only [Function.comp]
      omega
    · simp [toyLib, hp]
  same a p q r s h1 h2 := by
    rw [(toyLib_mul h1).2, (toyLib_mul h2).2]
    exact map_add_iff _ p q
  canon a b p q r s h1 h2 := by
    have e : ∀ (k : Nat) (l : Bytes), ((l.map fun b => (b + k) % 256).map fun b => b % 256) = l.map fun b => (b + k) % 256 := by
      intro k l
      rw [List.map_map]
      apply List.map_congr_left
      intro x _
      simp
    unfold toySame
    rw [(toyLib_mul h1).2, (toyLib_mul h2).2, e, e]
  round a p r h := by
    obtain ⟨hp, rfl⟩ := toyLib_mul h
    simp [toyLib, hp]

/-- 32 bytes of a text. -/
def pad (a : Bytes) : Bytes := (a ++ List.replicate 32 0).take 32

/-- Libraries. -/
def toy : Prims Bytes Bytes where
  sha := pad
  elligator a := some (pad (7 :: a))
  fourqHash a := if a = [] then none else some (pad (1 :: a))
  smHash a := some (pad (2 :: a))
  secpHash a := some (pad (3 :: a))
  x := toyLib
  lane := toyLib.mul
  f := toyLib
  s := toyLib
  secp := toyLib

theorem toy_laws : Laws toy where
  lane _ _ := rfl
  de _ := rfl
  ser _ := rfl

/-- A processor with AVX512. -/
def server : Cpu := ⟨true, true, true⟩

/-- A processor that is not x86. -/
def phone : Cpu := ⟨false, false, false⟩

/-- An x86 processor without AVX2. -/
def old : Cpu := ⟨true, false, false⟩

/-- Eleven items: two batches of the wide unit. -/
def xs : List Bytes := (List.range 11).map fun i => [i, i * i]

/-- Some of them, and another one. -/
def ys : List Bytes := [[3, 9], [200], [10, 100]]

/-- Two threads for eleven items, in the order in which they finish. -/
def two (_ : Fin 3) : List (Nat × Nat) := [(9, 11), (0, 9)]

/-- One thread. -/
def one (n : Nat) (_ : Fin 3) : List (Nat × Nat) := [(0, n)]

/-- The list of a result. -/
def get : Res (List Bytes) → List Bytes
  | .ok l => l
  | _ => []

/-- The messages of the server and of the phone, masked once and twice. -/
def ma : List Bytes := get (maskItems toy .ipp [5] xs two [] [])
def mb : List Bytes := get (maskItems toy .sodium [77] ys (one 3) [] [])
def outa : List Bytes := get (maskWire toy .sodium [77] ma two [] [])
def outb : List Bytes := get (maskWire toy .ipp [5] mb (one 3) [] [])
def mbe : List Bytes := get (maskItems toy .sodiumElligator [77] ys (one 3) [] [])
def outbe : List Bytes := get (maskWire toy .ipp [5] mbe (one 3) [] [])

theorem ok_get {r : Res (List Bytes)} (h : (match r with | .ok _ => true | _ => false) = true) : r = .ok (get r) := by
  cases r <;> simp_all [get]

theorem two_cover (l : List Bytes) (h : l.length = 11) (i : Fin 3) : Cover l.length (two i) := by
  rw [h]; unfold Cover; clear h l; revert i; decide

theorem one_cover (l : List Bytes) (h : l.length = 3) (i : Fin 3) : Cover l.length (one 3 i) := by
  rw [h]; unfold Cover; clear h l; revert i; decide

example := C110_items_partial toy toy_laws server .c25519 .ipp rfl (by decide) [5] xs two [] [] (two_cover xs rfl)
example := C110_items_partial toy toy_laws phone .fourq .fourq rfl (by decide) [5] xs two [] [] (two_cover xs rfl)
example : ∃ a ∈ [[1], [], [2]], Spec.item toy .fourq [5] a = none := ⟨[], by simp, rfl⟩
example := C110_wire_partial toy toy_laws phone .elligator2 .sodiumElligator rfl (by decide) [77] ma two [] []
  (two_cover ma (by decide +kernel))
example := C110_any_processor toy toy_laws server phone .c25519 .ipp .sodium rfl rfl [5] xs two (fun _ => [(0, 4), (4, 11)]) [] [1] [] [2]
  (two_cover xs rfl) (fun i => by unfold Cover; decide)
example := C110_refused old .fourq
example : createEccCryptor old .fourq = .throws ∧ createEccCryptor phone .fourq = .ok .fourq := by decide
example := C110_group_partial server .elligator2 .ippElligator rfl
example := C110_secp_is_sm2 toy server
/-- With SM2 in place of secp256k1 the masks are others. -/
example : get (maskItems toy (.openssl .secp256k1) [5] ys (one 3) [] []) ≠ ys.map fun a => (Spec.item toy .secp256k1 [5] a).getD [] := by
  decide +kernel
example := C110_check_partial server phone .c25519 .elligator2 .ipp .sodiumElligator 0 0 rfl rfl

/-- The fourth item of one party is the first of the other; the second item of the other is not among the first party's. -/
example : outa[3]? = outb[0]? ∧ outa[10]? = outb[2]? ∧ ∀ i : Fin 11, outa[i.val]? ≠ outb[1]? := by decide +kernel
example := C110_meet toy toy_laws toySame toySame toySame toyLib_good toyLib_good toyLib_good server phone .c25519 .ipp .sodium rfl rfl
  [5] [77] xs ys ma mb outa outb two two (one 3) (one 3) [] [] (two_cover xs rfl) (two_cover ma (by decide +kernel)) (one_cover ys rfl)
  (one_cover mb (by decide +kernel)) (ok_get (by decide +kernel)) (ok_get (by decide +kernel)) (ok_get (by decide +kernel))
  (ok_get (by decide +kernel)) 3 0 [3, 9] [3, 9] _ _ rfl rfl (List.getElem?_eq_getElem (by decide +kernel))
  (List.getElem?_eq_getElem (by decide +kernel))
example := C110_check_misses_elligator toy toy_laws toySame toyLib_good server phone .ipp .sodiumElligator rfl rfl 0
  [5] [77] xs ys ma mbe outa outbe two two (one 3) (one 3) [] [] (two_cover xs rfl) (two_cover ma (by decide +kernel)) (one_cover ys rfl)
  (one_cover mbe (by decide +kernel)) (ok_get (by decide +kernel)) (ok_get (by decide +kernel)) (ok_get (by decide +kernel))
  (ok_get (by decide +kernel)) 3 0 [3, 9] _ _ rfl rfl (List.getElem?_eq_getElem (by decide +kernel))
  (List.getElem?_eq_getElem (by decide +kernel))
/-- None of the two shared items is found. -/
example : ∀ i : Fin 11, ∀ j : Fin 3, outa[i.val]? ≠ outbe[j.val]? := by decide +kernel
example := C110_oprf_group phone .secp256k1
example : createOprf server .c25519 = .throws ∧ createOprf server .secp256k1 = .ok .secp256k1 := by decide

end Psi.Cryptor
