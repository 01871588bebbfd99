import Verif.Ecdh.Margin
import Verif.X25519.Props

/-!
# C121 for Curve25519

The masks of `SodiumCurve25519Cryptor` are `X25519` of strings of 32 bytes, the hash of an item is any such string
(`psi/cryptor/sodium_curve25519_cryptor.cc:25-31`), and 12 bytes are compared.
-/

namespace Psi.Ecdh
open Psi.X25519 Psi.Elligator

attribute [local irreducible] Psi.X25519.x25519

/-- Strings of 32 bytes. -/
abbrev Str := Fin 32 → UInt8

/-- The string of a list of bytes. -/
def strOf (b : Bytes) : Str := fun i => b.getD i 0

/-- Two-party ECDH-PSI with `SodiumCurve25519Cryptor` and the default of `dual_mask_size`
(`psi/cryptor/sodium_curve25519_cryptor.cc:25-31`, `psi/cryptor/ecc_cryptor.cc:24-42`,
`psi/algorithm/ecdh/ecdh_psi.h:52`, `psi/utils/communication.h:42`).  Points
are sent as they are. -/
def cfg25519 {α : Type} (key : Bool → Bytes) (hash : α → Str) (target : Target) (window : Option Nat)
    (input : Bool → List (List (α × Nat))) : Cfg α Str :=
  { hash, target, window, input
    mask := fun r p => strOf (x25519 (key r) (List.ofFn p))
    ser := List.ofFn
    deser := strOf
    dualSize := 12 }

theorem ofFn_strOf {b : Bytes} (h : b.length = 32) : List.ofFn (strOf b) = b := by
  apply List.ext_getElem
  · rw [List.length_ofFn, h]
  · intro i h1 h2
    rw [List.getElem_ofFn, strOf, List.getD_eq_getElem?_getD, List.getElem?_eq_getElem h2]
    rfl

theorem strOf_ofFn (p : Str) : strOf (List.ofFn p) = p := by
  funext i
  rw [strOf, List.getD_eq_getElem?_getD, List.getElem?_ofFn]
  simp

instance : Finite UInt8 := Finite.of_injective UInt8.toFin fun _ _ h => UInt8.toFin_inj.1 h

theorem card_byte : Nat.card UInt8 = 256 := by
  rw [Nat.card_congr (⟨UInt8.toFin, UInt8.ofFin, fun _ => rfl, fun _ => rfl⟩ : UInt8 ≃ Fin UInt8.size), Nat.card_fin]

theorem card_str (k : Nat) : Nat.card (Fin k → UInt8) = 256 ^ k := by
  rw [Nat.card_fun, card_byte, Nat.card_fin]

/-- Both masks. -/
def both (key : Bool → Bytes) (p : Str) : Bytes := x25519 (key false) (x25519 (key true) (List.ofFn p))

section
variable {α : Type} {key : Bool → Bytes} (hk : ∀ r, (key r).length = 32) (hash : α → Str) (target : Target) (window : Option Nat)
  (input : Bool → List (List (α × Nat)))

theorem comp_both (key : Bool → Bytes) (hash : α → Str) (target : Target) (window : Option Nat)
    (input : Bool → List (List (α × Nat))) (p : Str) : comp (cfg25519 key hash target window input) p = (both key p).drop 20 := by
  show (List.ofFn (strOf (x25519 (key false) (List.ofFn (strOf (x25519 (key true) (List.ofFn p))))))).drop
    ((List.ofFn (strOf (x25519 (key false) (List.ofFn (strOf (x25519 (key true) (List.ofFn p))))))).length - 12) = _
  rw [ofFn_strOf (x25519_length _ _), ofFn_strOf (x25519_length _ _), x25519_length]
  rfl

include hk in
theorem both_few (q : Bytes) : {p | both key p = q}.ncard ≤ 32 := by
  by_cases he : ∃ t, both key t = q
  · obtain ⟨t, rfl⟩ := he
    obtain ⟨hfin, hle⟩ := C114_few (hk true) (List.ofFn t)
    refine le_trans (Set.ncard_le_ncard_of_injOn List.ofFn ?_ (fun a _ b _ h => List.ofFn_injective h) hfin) hle
    intro p hp
    refine ⟨List.length_ofFn, ?_⟩
    rw [C114_meet (hk true), ← C114_meet_both (hk true) (hk false)]
    rw [← C114_commute (hk true) (hk false)]
    exact hp
  · rw [show {p | both key p = q} = ∅ from Set.eq_empty_iff_forall_notMem.2 fun p hp => he ⟨p, hp⟩, Set.ncard_empty]
    exact Nat.zero_le _

include hk in
/-- At most `2 ^ 165` of the `2 ^ 256` strings have the same comparison bytes. -/
theorem comp_few (v : Bytes) : {p | comp (cfg25519 key hash target window input) p = v}.ncard ≤ 2 ^ 165 := by
  classical
  have hfin : {p | comp (cfg25519 key hash target window input) p = v}.Finite := Set.toFinite _
  rw [Set.ncard_eq_toFinset_card _ hfin]
  have h1 := Finset.card_le_mul_card_image (f := both key) hfin.toFinset 32 (by
    intro q _
    refine le_trans ?_ (both_few hk q)
    rw [Set.ncard_eq_toFinset_card _ (Set.toFinite _)]
    apply Finset.card_le_card
    intro p hp
    rw [Finset.mem_filter] at hp
    simpa using hp.2)
  have h2 : (hfin.toFinset.image (both key)).card ≤ 2 ^ 160 := by
    have : Nat.card (Fin 20 → UInt8) = 2 ^ 160 := by rw [card_str]; norm_num
    rw [← this, ← Set.ncard_univ]
    rw [← Set.ncard_coe_finset]
    refine Set.ncard_le_ncard_of_injOn (fun (b : Bytes) (i : Fin 20) => b.getD i 0) (fun _ _ => Set.mem_univ _) ?_ (Set.toFinite _)
    intro a ha b hb hab
    have hv : ∀ x, x ∈ ((hfin.toFinset.image (both key) : Finset Bytes) : Set Bytes) → x.length = 32 ∧ x.drop 20 = v := by
      intro x hx
      obtain ⟨p, hp, rfl⟩ := Finset.mem_image.1 hx
      refine ⟨x25519_length _ _, ?_⟩
      rw [Set.Finite.mem_toFinset] at hp
      rw [← comp_both key hash target window input]
      exact hp
    obtain ⟨la, da⟩ := hv a ha
    obtain ⟨lb, db⟩ := hv b hb
    rw [← List.take_append_drop 20 a, ← List.take_append_drop 20 b, da, db]
    congr 1
    apply List.ext_getElem
    · rw [List.length_take, List.length_take, la, lb]
    · intro i h1 h2
      rw [List.length_take] at h1
      have h3 := congrFun hab ⟨i, by omega⟩
      simp only [List.getD_eq_getElem?_getD] at h3
      rw [List.getElem?_eq_getElem (by omega), List.getElem?_eq_getElem (by omega)] at h3
      simpa using h3
  calc _ ≤ _ := h1
    _ ≤ 32 * 2 ^ 160 := Nat.mul_le_mul_left _ h2
    _ = 2 ^ 165 := by norm_num

theorem leVal_drop (b : Bytes) (k : Nat) (h : k ≤ b.length) : leVal b / 256 ^ k = leVal (b.drop k) := by
  induction k generalizing b with
  | zero => simp
  | succ k ih =>
    obtain ⟨x, t, rfl⟩ : ∃ x t, b = x :: t := by
      cases b with
      | nil => simp at h
      | cons x t => exact ⟨x, t, rfl⟩
    have hx : x.toNat < 256 := x.toNat_lt
    rw [leVal_cons, List.drop_succ_cons, ← ih t (by simpa using h), pow_succ', ← Nat.div_div_eq_div_mul]
    congr 1
    omega

theorem leVal_inj : ∀ {a b : Bytes}, a.length = b.length → leVal a = leVal b → a = b
  | [], [], _, _ => rfl
  | [], _ :: _, h, _ => by simp at h
  | _ :: _, [], h, _ => by simp at h
  | x :: a, y :: b, h, e => by
    rw [leVal_cons, leVal_cons] at e
    have hx : x.toNat < 256 := x.toNat_lt
    have hy : y.toNat < 256 := y.toNat_lt
    rw [leVal_inj (by simpa using h) (by omega : leVal a = leVal b), UInt8.toNat_inj.1 (by omega : x.toNat = y.toNat)]

/-- The number that the comparison bytes stand for: the top bit is never set. -/
def top (key : Bool → Bytes) (p : Str) : Fin (2 ^ 95) :=
  ⟨leVal (both key p) / 256 ^ 20, by
    have := (x25519_val (key false) (x25519 (key true) (List.ofFn p))).2
    rw [Nat.div_lt_iff_lt_mul (by norm_num)]
    refine lt_trans this (lt_of_lt_of_eq kP_lt_255 (by norm_num))⟩

theorem top_iff (key : Bool → Bytes) (hash : α → Str) (target : Target) (window : Option Nat)
    (input : Bool → List (List (α × Nat))) (p q : Str) : top key p = top key q ↔
      comp (cfg25519 key hash target window input) p = comp (cfg25519 key hash target window input) q := by
  have hp : (both key p).length = 32 := x25519_length _ _
  have hq : (both key q).length = 32 := x25519_length _ _
  rw [comp_both, comp_both, top, top, Fin.mk.injEq, leVal_drop _ _ (by omega), leVal_drop _ _ (by omega)]
  exact ⟨leVal_inj (by rw [List.length_drop, List.length_drop, hp, hq]), fun h => by rw [h]⟩

variable [DecidableEq α] [Finite α] (hw : ∀ w, window = some w → 0 < w) (hne : ∀ r, ∀ b ∈ input r, b ≠ [])
  (hsm : ∀ r, ∀ b ∈ input r, b.length < 2 ^ 32) (hd : ∀ r, ((input r).flatten.map Prod.fst).Nodup)
  (bh : List Char → Nat) (n : Nat) (hn : 0 < n) (hl : ∀ r, (input r).flatten.length ≤ 2 ^ 64)
  (hdup : ∀ r, ∀ x ∈ (input r).flatten, x.2 < 2 ^ 32)

omit [DecidableEq α] [Finite α] in
theorem lawful25519 (hw : ∀ w, window = some w → 0 < w) (hne : ∀ r, ∀ b ∈ input r, b ≠ [])
    (hsm : ∀ r, ∀ b ∈ input r, b.length < 2 ^ 32) : (cfg25519 key hash target window input).Lawful 32 :=
  ⟨fun _ => List.length_ofFn, strOf_ofFn, by show 12 ≤ 32; omega, hw, hne, hsm⟩

omit [DecidableEq α] [Finite α] in
include hk in
theorem comm25519 (p : Str) : (cfg25519 key hash target window input).mask false ((cfg25519 key hash target window input).mask true p) =
    (cfg25519 key hash target window input).mask true ((cfg25519 key hash target window input).mask false p) := by
  show strOf (x25519 (key false) (List.ofFn (strOf (x25519 (key true) (List.ofFn p))))) =
    strOf (x25519 (key true) (List.ofFn (strOf (x25519 (key false) (List.ofFn p)))))
  rw [ofFn_strOf (x25519_length _ _), ofFn_strOf (x25519_length _ _), C114_commute (hk true) (hk false)]

include hk hw hne hsm hd hn hl hdup

/-- **C121** With Curve25519 and at most `2 ^ 51` pairs of items at most one in `2 ^ 40` hashes leads to a wrong result. -/
theorem C121_25519_partial (hsize : (input false).flatten.length * (input true).flatten.length ≤ 2 ^ 51) :
    (SomeWrong (cfg25519 key hash target window input) bh n).ncard * 2 ^ 40 ≤ Nat.card (α → Str) := by
  have hP : Nat.card Str = 2 ^ 256 := by rw [card_str]; norm_num
  refine C121_margin_partial _ (lawful25519 hash target window input hw hne hsm) (comm25519 hk hash target window input) hd bh n hn hl
    hdup (comp_few hk hash target window input) (by rw [hP]; positivity) ?_
  rw [hP]
  calc _ ≤ 2 ^ 51 * 2 ^ 165 * 2 ^ 40 := Nat.mul_le_mul_right _ (Nat.mul_le_mul_right _ hsize)
    _ = 2 ^ 256 := by norm_num

/-- **Finding.**  From `2 ^ 56` pairs on, two inputs of `2 ^ 28` items, more than one in `2 ^ 40` is wrong. -/
theorem C121_25519_missed (hdis : ∀ x ∈ (input false).flatten.map Prod.fst, x ∉ (input true).flatten.map Prod.fst)
    (hsize : 2 ^ 56 < (input false).flatten.length * (input true).flatten.length)
    (hfew : (input false).flatten.length * (input true).flatten.length ≤ 2 ^ 90) :
    Nat.card (α → Str) < (AllWrong (cfg25519 key hash target window input) bh n).ncard * 2 ^ 40 ∧
    ∀ ω, ∃ sched s, exec (cfg25519 key ω target window input) sched (init (cfg25519 key ω target window input)) = some s ∧
      ∀ r, (s.party r).finished = true := by
  have hP : Nat.card Str = 2 ^ 256 := by rw [card_str]; norm_num
  have h := C121_margin_missed (cfg25519 key hash target window input) (lawful25519 hash target window input hw hne hsm)
    (comm25519 hk hash target window input) hd bh n hn hl hdup (ssp := 40) (top_iff key hash target window input)
    (comp_few hk hash target window input) hdis
    (by
      calc 2 * 2 ^ 95 = 2 ^ 56 * 2 ^ 40 := by norm_num
        _ < (input false).flatten.length * (input true).flatten.length * 2 ^ 40 :=
          Nat.mul_lt_mul_of_pos_right hsize (Nat.two_pow_pos 40))
    (by
      rw [hP]
      calc _ ≤ 2 * 2 ^ 90 * 2 ^ 165 := Nat.mul_le_mul_right _ (Nat.mul_le_mul_left _ hfew)
        _ = 2 ^ 256 := by norm_num)
  exact h

end

/-! ## Two inputs of `N` items each, all different -/

/-- The items of a party, in one batch. -/
def exInput (N : Nat) (r : Bool) : List (List ((Bool × Fin N) × Nat)) := [(List.finRange N).map fun i => ((r, i), 0)]

def exKey (r : Bool) : Bytes := List.replicate 32 (if r then 7 else 9)

theorem exKey_length (r : Bool) : (exKey r).length = 32 := List.length_replicate

theorem exInput_flat (N : Nat) (r : Bool) : (exInput N r).flatten = (List.finRange N).map fun i => ((r, i), 0) := by
  rw [exInput, List.flatten_cons, List.flatten_nil, List.append_nil]

theorem exInput_len (N : Nat) (r : Bool) : (exInput N r).flatten.length = N := by
  rw [exInput_flat, List.length_map, List.length_finRange]

theorem exInput_ne {N : Nat} (hN : 0 < N) (r : Bool) : ∀ b ∈ exInput N r, b ≠ [] := by
  intro b hb h
  rw [exInput, List.mem_singleton] at hb
  have h2 := congrArg List.length (hb.symm.trans h)
  rw [List.length_map, List.length_finRange] at h2
  exact hN.ne' h2

theorem exInput_small {N : Nat} (hN : N < 2 ^ 32) (r : Bool) : ∀ b ∈ exInput N r, b.length < 2 ^ 32 := by
  intro b hb
  rw [exInput, List.mem_singleton] at hb
  rw [hb, List.length_map, List.length_finRange]
  exact hN

theorem exInput_fst (N : Nat) (r : Bool) : (exInput N r).flatten.map Prod.fst = (List.finRange N).map fun i => (r, i) := by
  rw [exInput_flat, List.map_map]
  rfl

theorem exInput_nodup (N : Nat) (r : Bool) : ((exInput N r).flatten.map Prod.fst).Nodup := by
  rw [exInput_fst]
  exact (List.nodup_finRange N).map fun i j h => (Prod.mk.injEq _ _ _ _ ▸ h).2

theorem exInput_dup (N : Nat) (r : Bool) : ∀ x ∈ (exInput N r).flatten, x.2 < 2 ^ 32 := by
  intro x hx
  rw [exInput_flat] at hx
  obtain ⟨i, _, rfl⟩ := List.mem_map.1 hx
  exact Nat.two_pow_pos 32

theorem exInput_apart (N : Nat) : ∀ x ∈ (exInput N false).flatten.map Prod.fst, x ∉ (exInput N true).flatten.map Prod.fst := by
  intro x hx hy
  rw [exInput_fst] at hx hy
  obtain ⟨i, _, rfl⟩ := List.mem_map.1 hx
  obtain ⟨j, _, h⟩ := List.mem_map.1 hy
  cases congrArg Prod.fst h

/-- A thousand items each. -/
example : (SomeWrong (cfg25519 exKey (fun _ => strOf []) .all (some 10) (exInput 1000)) (fun s => s.length) 64).ncard * 2 ^ 40 ≤
    Nat.card (Bool × Fin 1000 → Str) :=
  C121_25519_partial exKey_length _ .all (some 10) (exInput 1000) (by rintro _ ⟨⟩; omega) (exInput_ne (by omega))
    (exInput_small (by omega)) (exInput_nodup _) _ 64 (by omega) (fun r => by rw [exInput_len]; omega) (exInput_dup _)
    (by rw [exInput_len, exInput_len]; omega)

/-- `2 ^ 29` items each. -/
example : Nat.card (Bool × Fin (2 ^ 29) → Str) <
    (AllWrong (cfg25519 exKey (fun _ => strOf []) (.rank true) none (exInput (2 ^ 29))) (fun s => s.length) 64).ncard * 2 ^ 40 :=
  (C121_25519_missed exKey_length _ (.rank true) none (exInput (2 ^ 29)) (by rintro _ ⟨⟩) (exInput_ne (by norm_num))
    (exInput_small (by norm_num)) (exInput_nodup _) _ 64 (by omega) (fun r => by rw [exInput_len]; norm_num) (exInput_dup _)
    (exInput_apart _) (by rw [exInput_len, exInput_len]; norm_num) (by rw [exInput_len, exInput_len]; norm_num)).1

/-- The bound by the number of pairs, for three items each. -/
example : (SomeWrong (cfg25519 exKey (fun _ => strOf []) .all none (exInput 3)) (fun s => s.length) 4).ncard * Nat.card Str ≤
    (Cfg.items (cfg25519 exKey (fun _ => strOf []) .all none (exInput 3)) false).length *
      (Cfg.items (cfg25519 exKey (fun _ => strOf []) .all none (exInput 3)) true).length * 2 ^ 165 *
      Nat.card (Bool × Fin 3 → Str) :=
  C121_wrong_runs _ (lawful25519 _ .all none (exInput 3) (by rintro _ ⟨⟩) (exInput_ne (by omega)) (exInput_small (by omega)))
    (comm25519 exKey_length _ .all none (exInput 3)) (exInput_nodup _) _ 4 (by omega)
    (fun r => by show (exInput 3 r).flatten.length ≤ _; rw [exInput_len]; omega) (exInput_dup _)
    (comp_few exKey_length _ .all none (exInput 3))

end Psi.Ecdh
