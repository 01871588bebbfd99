import Verif.Nty.Props
import Verif.Okvs.Props

/-! # Runs with three and with four parties -/

namespace Psi.Nty
open Psi.Gf128
open Psi.Okvs hiding Err
open Psi.Baxos hiding Err
open Psi.Rr22 Psi.Rr22.Oprf
open Psi.Ecdh (Bytes)

namespace Ex

/-- A toy cipher; the zero key stands for the one of the two-party step. -/
def aes (k x : Gf) : Gf := if k = 0 then x + 1 else Gf.ofNat (x.val * 12345678901234567890123 + k.val * 98765432109876543210)
def aesInv (_ x : Gf) : Gf := x + 1

/-- Four items go to two bins, fewer to one. -/
def cfg (n : Nat) : Cfg := if n = 4 then cfg2 else ⟨n, 1, n, fun _ => n, 3, 10, 2, true⟩

def store : Store := ⟨cfg, fun x => x.val, minPick 10, ⟨2, [0, 1, 1, 0], [1, 0], []⟩, ⟨2, [], [], [1, 0, 0, 0, 1, 0, 1, 1]⟩⟩

def coins : Coins := ⟨fun i => Gf.ofNat (i + 5), fun _ => store, 0, List.reverse, id, Gf.ofNat 77⟩

def inputs (i : Nat) : List Gf := match i with
  | 0 => [0, 1, Gf.ofNat 2, Gf.ofNat (2 ^ 70 + 5)]
  | 1 => [Gf.ofNat 7, Gf.ofNat (2 ^ 70 + 5), 1]
  | 2 => [1, Gf.ofNat (2 ^ 70 + 5), Gf.ofNat 2]
  | _ => [Gf.ofNat 9, 1, Gf.ofNat 3]

def three : Setup := ⟨3, 0, 1, 2⟩
def four : Setup := ⟨4, 0, 1, 2⟩

theorem store_ok (i : Nat) : store.Ok (inputs i).length := by
  have : ∀ n, (n = 3 ∨ n = 4) → store.Ok n := by
    rintro n (rfl | rfl)
    · exact ⟨⟨by decide, by decide, by decide, by decide, by decide, by decide⟩, minPick_ok 10, by decide, by decide, by decide⟩
    · exact ⟨⟨by decide, by decide, by decide, by decide, by decide, by decide⟩, minPick_ok 10, by decide, by decide, by decide⟩
  apply this
  match i with
  | 0 => exact .inr rfl
  | 1 => exact .inl rfl
  | 2 => exact .inl rfl
  | i + 3 => exact .inl rfl

theorem honest (s : Setup) (h : s.receiver = 2) : Honest aes aesInv s coins inputs where
  inv x := by
    show x + 1 + 1 = x
    rw [add_assoc, Gf.add_self, add_zero]
  shuffleH l := List.reverse_perm l
  shuffleR l := List.Perm.refl l
  store i _ := store_ok i
  len := by rw [h]; decide

theorem ends : ∀ n m, (n = 3 ∨ n = 4) → m = 3 → store.Ends n m := by
  rintro n m (rfl | rfl) rfl
  · exact ⟨by decide, by unfold Fair; decide⟩
  · exact ⟨by decide, by unfold Fair; decide⟩

/-- The tables of a run, as far as they are made. -/
noncomputable def made (s : Setup) (i : Nat) : Option (Nat → Gf) :=
  match solve (cfg (inputs i).length) (encGf (cfg (inputs i).length) store.pick) store.send.threads store.send.solve1 store.send.solve2
    ((inputs i).map store.hash) (fun j => ((inputs i).map (encoded aes s coins i)).getD j 0) (fun _ => 0) with
  | .ok T => some T
  | .error _ => none

noncomputable def tables (s : Setup) (i : Nat) : Nat → Gf := (made s i).getD fun _ => 0

theorem inputs_ne (i : Nat) : inputs i ≠ [] := by
  unfold inputs
  split <;> simp

theorem made_some {s : Setup} {i : Nat} (h : (made s i).isSome = true) : store.Solves (inputs i) (encoded aes s coins i) (tables s i) := by
  refine ⟨inputs_ne i, ?_⟩
  have e : ∃ T, made s i = some T ∧ solve (cfg (inputs i).length) (encGf (cfg (inputs i).length) store.pick) store.send.threads
      store.send.solve1 store.send.solve2 ((inputs i).map store.hash) (fun j => ((inputs i).map (encoded aes s coins i)).getD j 0)
      (fun _ => 0) = .ok T := by
    unfold made at h ⊢
    generalize solve (cfg (inputs i).length) (encGf (cfg (inputs i).length) store.pick) store.send.threads
      store.send.solve1 store.send.solve2 ((inputs i).map store.hash) (fun j => ((inputs i).map (encoded aes s coins i)).getD j 0)
      (fun _ => 0) = r at h ⊢
    cases r with
    | ok T => exact ⟨T, rfl, rfl⟩
    | error e => cases h
  obtain ⟨T, e1, e2⟩ := e
  have e3 : tables s i = T := by
    unfold tables
    rw [e1]
    rfl
  rw [e3]
  exact e2

theorem tables_ok (s : Setup) (h : ∀ i ∈ s.senders, (made s i).isSome = true) : Tables aes s coins inputs (tables s) :=
  fun i hi => made_some (h i hi)

theorem three_tables : Tables aes three coins inputs (tables three) := tables_ok _ (by decide +kernel)
theorem four_tables : Tables aes four coins inputs (tables four) := tables_ok _ (by decide +kernel)

theorem three_clean : NoAccident aes three coins inputs (tables three) := ⟨by decide +kernel, by unfold Common; decide +kernel⟩
theorem four_clean : NoAccident aes four coins inputs (tables four) := ⟨by decide +kernel, by unfold Common; decide +kernel⟩

theorem ends_all (s : Setup) (h : s.helper = 1) (h' : s.receiver = 2) (i : Nat) :
    store.Ends (inputs i).length (inputs (if i = s.server then s.receiver else s.helper)).length := by
  rw [h, h']
  apply ends
  · unfold inputs
    split <;> simp
  · split_ifs <;> rfl

theorem three_runs (b : Bool) : ∃ out, run aes aesInv three b coins inputs = .ok out :=
  nty_runs (honest _ rfl) (by decide) three_tables (fun i _ => ends_all _ rfl rfl i) (by decide +kernel)

theorem four_runs (b : Bool) : ∃ out, run aes aesInv four b coins inputs = .ok out :=
  nty_runs (honest _ rfl) (by decide) four_tables (fun i _ => ends_all _ rfl rfl i) (by decide +kernel)

example : Common three inputs (Gf.ofNat (2 ^ 70 + 5)) ∧ ¬ Common four inputs (Gf.ofNat (2 ^ 70 + 5)) ∧ Common four inputs 1 := by
  unfold Common
  decide +kernel

/-- Three parties have two items in common, the fourth has one of them. -/
example (b : Bool) : ∃ out, run aes aesInv three b coins inputs = .ok out ∧ (out 2).Nodup ∧
    ∀ x, x ∈ out 2 ↔ Common three inputs x := by
  obtain ⟨out, h⟩ := three_runs b
  exact ⟨out, h, nty_set (honest _ rfl) three_tables three_clean h (.inl (by decide +kernel))⟩

example (b : Bool) : ∃ out, run aes aesInv four b coins inputs = .ok out ∧ (out 2).Nodup ∧
    ∀ x, x ∈ out 2 ↔ Common four inputs x := by
  obtain ⟨out, h⟩ := four_runs b
  exact ⟨out, h, nty_set (honest _ rfl) four_tables four_clean h (.inl (by decide +kernel))⟩

example {out : Nat → List Gf} (h : run aes aesInv four true coins inputs = .ok out) : out 3 = out 2 :=
  nty_broadcast (honest _ rfl) h (i := 3) (by decide)

example {out : Nat → List Gf} (h : run aes aesInv four false coins inputs = .ok out) : out 3 = [] :=
  nty_broadcast (honest _ rfl) h (i := 3) (by decide)

example := nty_agree (honest four rfl) (by decide) four_tables (x := 1) (by unfold Common; decide +kernel)

example {out : Nat → List Gf} (h : run aes aesInv four true coins inputs = .ok out) := nty_sound (honest _ rfl) h

example {out : Nat → List Gf} (h : run aes aesInv four true coins inputs = .ok out) : (out 2).count 1 = 1 := by
  have := (nty_exact (honest _ rfl) four_tables four_clean h 1).2 (by unfold Common; decide +kernel)
  exact this

/-- The server has no items. -/
example (out : Nat → List Gf) : run aes aesInv three true coins (fun i => if i = 0 then [] else inputs i) ≠ .ok out :=
  nty_empty (i := 0) (by decide) rfl out

/-- The fourth party has no items. -/
example (out : Nat → List Gf) : run aes aesInv four true coins (fun i => if i = 3 then [] else inputs i) ≠ .ok out :=
  nty_empty (i := 3) (by decide) rfl out

example := nty_short_message [1, 2, 3] [] (.inl (by decide))

theorem four_tags : ∀ x ∈ inputs four.receiver, ∀ y ∈ inputs four.receiver,
    tagR four coins inputs (tables four) x = tagR four coins inputs (tables four) y → x = y := by decide +kernel

example {out : Nat → List Gf} (h : run aes aesInv four true coins inputs = .ok out) :=
  nty_count (honest _ rfl) four_tables four_tags h (x := 1) (by decide +kernel)

example {out : Nat → List Gf} (h : run aes aesInv four true coins inputs = .ok out) : 1 ∈ out 2 :=
  nty_complete (honest _ rfl) four_tables four_tags h (x := 1) (by unfold Common; decide +kernel)

end Ex
end Psi.Nty
