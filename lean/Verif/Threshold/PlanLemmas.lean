import Verif.Threshold.OrderLemmas
import Verif.Net.Lemmas

/-! # The traffic of a complete run of threshold ECDH-PSI -/

namespace Psi.Threshold
open Psi.Net
open Psi.Ecdh (Bytes Msg encode decode decode_encode selfMsg selfMsgs allBatches allBatches_get allBatches_empty_iff
  allBatches_small encode_decode_self cipher dual2 dupAt dupMap dupMap_lookup)

variable {α P : Type}

/-- Number of messages that carry the items of a party. -/
def nm (r : Run α P) (me : Bool) : Nat := (allBatches r.cfg me).length

/-- The receiver's own doubly masked items, as they come back; the sender's, as the receiver masks them. -/
def selfStore (r : Run α P) : List (Bytes × Nat) := (ordTo r (nm r true)).map (fun j => (dualAt r j, 0))
def peerStore (r : Run α P) : List (Bytes × Nat) := (r.items false).map (fun x => (dual2 r.cfg false x.1, x.2))

def tE (r : Run α P) : Nat := 4 * nm r true + 2 * nm r false + 10

/-- What the sender answers to the chosen positions. -/
def answer (r : Run α P) (f : Found) : List (Nat × Nat) := restore (cacheTo r (nm r true)) (f.lines.map (·.1))

def plan (r : Run α P) (f : Found) : Plan Task Queue Packet (St α) where
  h
    | .xa => (selfMsgs r.cfg true).map .wire
    | .yb => (selfMsgs r.cfg false).map .wire
    | .xab => (List.range (nm r true)).map (fun k => .wire (encode ((ordAt r k).map (dualAt r)) [] k))
    | .idx => [.nums (f.lines.map (·.1)), .count f.real] ++ (if r.broadcast then [.nums (f.lines.map (·.2.1))] else [])
    | .back => [.nums ((answer r f).map Prod.fst)]
    | .fsMask => [.nums []]
    | .fsShuffle => [.cache (cacheTo r (nm r true))]
    | .frMask => [.nums []]
    | .frPeer => [.store (peerStore r)]
    | .frDual => [.store (selfStore r)]
  ts
    | .xa, i => 4 * i
    | .yb, i => 2 * i
    | .xab, i => 4 * i + 2
    | .idx, i => tE r + 10 + 2 * i
    | .back, i => tE r + 20 + 2 * i
    | .fsMask, i => 2 * nm r false + i
    | .fsShuffle, i => 4 * nm r true + i
    | .frMask, i => 4 * nm r true + i
    | .frPeer, i => 2 * nm r false + i
    | .frDual, i => 4 * nm r true + i
  tr
    | .xa, i => 4 * i + 1
    | .yb, i => 2 * i + 1
    | .xab, i => 4 * i + 3
    | .idx, i => tE r + 11 + 2 * i
    | .back, i => tE r + 21 + 2 * i
    | .fsMask, i => tE r + i
    | .fsShuffle, i => tE r + 1 + i
    | .frMask, i => tE r + i
    | .frPeer, i => tE r + 1 + i
    | .frDual, i => tE r + 2 + i
  final
    | .sMain => .out ⟨if r.broadcast then some ((f.lines.map (·.2.1)).zip ((answer r f).map Prod.snd)) else none,
        f.real, f.lines.length⟩
    | .rMain => .out ⟨some (((answer r f).map Prod.fst).zip (f.lines.map (·.2.2))), f.real, f.lines.length⟩
    | _ => .done

theorem nm_pos (r : Run α P) (me : Bool) : 0 < nm r me := by simp [nm, allBatches]

variable {N : Sys Task Queue Packet (St α)} {Pl : Plan Task Queue Packet (St α)}

theorem will_maskSelf {r : Run α P} {L : Nat} (hc : r.Lawful L) {me : Bool} {t : Task} {q fut : Queue} (hqf : q ≠ fut)
    (hb : ∀ i l, N.body t (.mask i l) = maskSelf r me q fut i l) (hw : N.writer q = t) (hwf : N.writer fut = t)
    (hh : Pl.h q = (selfMsgs r.cfg me).map .wire) (hhf : Pl.h fut = [.nums []])
    (hmono : ∀ i, Pl.ts q i < Pl.ts q (i + 1)) (hlast : Pl.ts q (nm r me - 1) < Pl.ts fut 0)
    (hf : Pl.final t = .done) (hR : ∀ x, N.reader x ≠ t) (hW : ∀ x, N.writer x = t → x = q ∨ x = fut) :
    ∀ k i, i + k + 1 = nm r me → ∀ (R W : Queue → Nat) τ, W q = i → W fut = 0 → τ ≤ Pl.ts q i →
      Will N Pl t τ R W (.next (.mask i ((r.base.input me).drop i))) := by
  intro k
  induction k with
  | zero =>
    intro i hi R W τ hWi hWf hτ
    refine .next ?_
    rw [hb]
    unfold maskSelf
    have hi' : i < (allBatches r.cfg me).length := by unfold nm at hi; omega
    have hg := allBatches_get r.cfg me i hi'
    have he := allBatches_empty_iff r.cfg hc.cfg me i hi'
    rw [show ((r.base.input me).drop i).headD [] = (allBatches r.cfg me)[i] from hg.symm]
    have he' : (allBatches r.cfg me)[i].isEmpty = true := by
      rw [he]; simp; unfold nm at hi; omega
    simp only [he', if_true]
    refine .send hw ?_ (by rw [hWi]; exact hτ) ?_
    · rw [hh, hWi]; simp [selfMsgs, hi']
    · refine .send hwf ?_ ?_ ?_
      · rw [hhf, Function.update_of_ne hqf.symm, hWf]; rfl
      · rw [hWi, Function.update_of_ne hqf.symm, hWf]
        have : i = nm r me - 1 := by omega
        rw [this]; omega
      · refine .halt hf.symm (fun x hx => absurd hx (hR x)) (fun x hx => ?_)
        rcases hW x hx with rfl | rfl
        · rw [Function.update_of_ne hqf, Function.update_self, hh, hWi]
          simp only [List.length_map, Ecdh.selfMsgs_length]
          unfold nm at hi; omega
        · rw [Function.update_self, Function.update_of_ne hqf.symm, hWf, hhf]; rfl
  | succ k ih =>
    intro i hi R W τ hWi hWf hτ
    refine .next ?_
    rw [hb]
    unfold maskSelf
    have hi' : i < (allBatches r.cfg me).length := by unfold nm at hi; omega
    have hg := allBatches_get r.cfg me i hi'
    have he := allBatches_empty_iff r.cfg hc.cfg me i hi'
    rw [show ((r.base.input me).drop i).headD [] = (allBatches r.cfg me)[i] from hg.symm]
    have he' : (allBatches r.cfg me)[i].isEmpty = false := by
      rw [he]; simp; unfold nm at hi; omega
    simp only [he', Bool.false_eq_true, if_false]
    refine .send hw ?_ (by rw [hWi]; exact hτ) ?_
    · rw [hh, hWi]; simp [selfMsgs, hi']
    · rw [List.tail_drop, hWi]
      exact ih (i + 1) (by omega) _ _ _ (by simp) (by rw [Function.update_of_ne hqf.symm]; exact hWf) (hmono i)

theorem will_sShuffle {r : Run α P} {L : Nat} (hc : r.Lawful L) (f : Found) :
    ∀ k i, i + k + 1 = nm r true → ∀ (R W : Queue → Nat) τ, R .xa = i → W .xab = i → W .fsShuffle = 0 →
      τ ≤ 4 * i + 1 →
      Will (net r) (plan r f) .sShuffle τ R W (.next (.shuffle i (cnt r i) (cacheTo r i))) := by
  have step : ∀ i, i < nm r true → ∃ m, ((plan r f).h .xa)[i]? = some (.wire m) ∧
      decode i m = some ((bat r i).map (fun x => r.cfg.ser (r.cfg.mask true (r.cfg.hash x.1))),
        if (bat r i).isEmpty then [] else if r.cfg.target.canTouch false then dupMap (bat r i) else []) ∧
      (bat r i).isEmpty = decide (i + 1 = nm r true) := by
    intro i hi
    refine ⟨selfMsg r.cfg true (allBatches r.cfg true)[i] i, ?_, ?_, ?_⟩
    · show ((selfMsgs r.cfg true).map Packet.wire)[i]? = _
      unfold nm at hi
      simp [selfMsgs, hi]
    · rw [encode_decode_self r.cfg hc.cfg true i hi, bat_eq r i hi]; rfl
    · rw [bat_eq r i hi]; exact allBatches_empty_iff r.cfg hc.cfg true i hi
  intro k
  induction k with
  | zero =>
    intro i hi R W τ hR hW hWf hτ
    obtain ⟨m, h1, h2, h3⟩ := step i (by omega)
    refine .next ?_
    show Will _ _ _ _ _ _ (maskShuffle r i (cnt r i) (cacheTo r i))
    unfold maskShuffle
    refine .recv (m := .wire m) rfl (by rw [hR]; exact h1) (by rw [hR]; exact hτ) ?_
    simp only [h2, shuffleBatch_eq hc, List.isEmpty_map]
    rw [← cacheTo_succ hc]
    refine .send rfl ?_ ?_ ?_
    · rw [hW]
      show ((List.range (nm r true)).map _)[i]? = _
      rw [List.getElem?_map, List.getElem?_range (by omega)]; rfl
    · rw [hR, hW]; show 4 * i + 1 + 1 ≤ 4 * i + 2; omega
    · rw [if_pos (by rw [h3]; simpa using hi)]
      have hN : i + 1 = nm r true := by omega
      rw [hN]
      refine .send rfl ?_ ?_ ?_
      · rw [Function.update_of_ne (by simp), hWf]; rfl
      · rw [Function.update_of_ne (by simp), hW, hWf]; show 4 * i + 2 + 1 ≤ 4 * nm r true + 0; omega
      · refine .halt rfl (fun x hx => ?_) (fun x hx => ?_)
        · cases x <;> first | (exfalso; revert hx; simp [net, reader]; done) | skip
          rw [Function.update_self, hR, hN]
          show _ = ((selfMsgs r.cfg true).map Packet.wire).length
          simp [nm, Ecdh.selfMsgs_length]
        · cases x <;> first | (exfalso; revert hx; simp [net, writer]; done) | skip
          · rw [Function.update_of_ne (by simp), Function.update_self, hW, hN]; simp [plan]
          · rw [Function.update_self, Function.update_of_ne (by simp), hWf]; rfl
  | succ k ih =>
    intro i hi R W τ hR hW hWf hτ
    obtain ⟨m, h1, h2, h3⟩ := step i (by omega)
    refine .next ?_
    show Will _ _ _ _ _ _ (maskShuffle r i (cnt r i) (cacheTo r i))
    unfold maskShuffle
    refine .recv (m := .wire m) rfl (by rw [hR]; exact h1) (by rw [hR]; exact hτ) ?_
    simp only [h2, shuffleBatch_eq hc, List.isEmpty_map]
    rw [← cacheTo_succ hc]
    refine .send rfl ?_ ?_ ?_
    · rw [hW]
      show ((List.range (nm r true)).map _)[i]? = _
      rw [List.getElem?_map, List.getElem?_range (by omega)]; rfl
    · rw [hR, hW]; show 4 * i + 1 + 1 ≤ 4 * i + 2; omega
    · rw [if_neg (by rw [h3]; simp; omega), List.length_map, ← cnt_succ]
      refine ih (i + 1) (by omega) _ _ _ (by simp [hR]) (by simp [hW])
        (by rw [Function.update_of_ne (by simp)]; exact hWf) ?_
      rw [hW]; show 4 * i + 2 + 1 ≤ _; omega

theorem will_rPeer {r : Run α P} {L : Nat} (hc : r.Lawful L) (f : Found) :
    ∀ k i, i + k + 1 = nm r false → ∀ (R W : Queue → Nat) τ, R .yb = i → W .frPeer = 0 → τ ≤ 2 * i + 1 →
      Will (net r) (plan r f) .rPeer τ R W (.next (.recv i
        (((allBatches r.cfg false).take i).flatten.map (fun x => (dual2 r.cfg false x.1, x.2))))) := by
  have step : ∀ i (hi : i < (allBatches r.cfg false).length), ∃ m dup, ((plan r f).h .yb)[i]? = some (.wire m) ∧
      decode i m = some ((allBatches r.cfg false)[i].map (fun x => r.cfg.ser (r.cfg.mask false (r.cfg.hash x.1))), dup) ∧
      (((allBatches r.cfg false)[i].map (fun x => r.cfg.ser (r.cfg.mask false (r.cfg.hash x.1)))).map
        (fun x => cipher r.cfg (r.cfg.mask true (r.cfg.deser x)))).zipIdx.map (fun x => (x.1, dupAt dup x.2)) =
        (allBatches r.cfg false)[i].map (fun x => (dual2 r.cfg false x.1, x.2)) := by
    intro i hi
    refine ⟨selfMsg r.cfg false (allBatches r.cfg false)[i] i, _, ?_, encode_decode_self r.cfg hc.cfg false i hi, ?_⟩
    · show ((selfMsgs r.cfg false).map Packet.wire)[i]? = _
      simp [selfMsgs, hi]
    · have ht : r.cfg.target.canTouch (!false) = true := by unfold Run.cfg; cases r.broadcast <;> rfl
      rw [ht]
      refine List.ext_getElem (by simp) (fun j hj1 hj2 => ?_)
      have hj : j < (allBatches r.cfg false)[i].length := by simpa using hj2
      have hne : (allBatches r.cfg false)[i].isEmpty = false := by
        cases h : (allBatches r.cfg false)[i] with
        | nil => rw [h] at hj; simp at hj
        | cons a l => rfl
      simp only [List.getElem_map, List.getElem_zipIdx, hne, Bool.false_eq_true, if_false, if_true, Nat.zero_add,
        dupMap_lookup _ _ hj, hc.cfg.round]
      rfl
  intro k
  induction k with
  | zero =>
    intro i hi R W τ hR hWf hτ
    have hi' : i < (allBatches r.cfg false).length := by unfold nm at hi; omega
    obtain ⟨m, dup, h1, h2, h3⟩ := step i hi'
    refine .next ?_
    show Will _ _ _ _ _ _ (recvPeer r i _)
    unfold recvPeer
    refine .recv (m := .wire m) rfl (by rw [hR]; exact h1) (by rw [hR]; exact hτ) ?_
    simp only [h2, h3, List.isEmpty_map, allBatches_empty_iff r.cfg hc.cfg false i hi']
    rw [if_pos (by unfold nm at hi; simpa using hi), ← Ecdh.take_flatten_succ _ _ hi']
    refine .send rfl ?_ ?_ ?_
    · rw [hWf]
      show some (Packet.store (peerStore r)) = _
      congr 3
      rw [List.take_of_length_le (by unfold nm at hi; omega)]
      unfold peerStore Run.items allBatches
      rw [List.flatten_append]; simp; rfl
    · rw [hR, hWf]; show 2 * i + 1 + 1 ≤ 2 * nm r false + 0; omega
    · refine .halt rfl (fun x hx => ?_) (fun x hx => ?_)
      · cases x <;> first | (exfalso; revert hx; simp [net, reader]; done) | skip
        rw [Function.update_self, hR]
        show _ = ((selfMsgs r.cfg false).map Packet.wire).length
        simp only [List.length_map, Ecdh.selfMsgs_length]; unfold nm at hi; omega
      · cases x <;> first | (exfalso; revert hx; simp [net, writer]; done) | skip
        rw [Function.update_self, hWf]; rfl
  | succ k ih =>
    intro i hi R W τ hR hWf hτ
    have hi' : i < (allBatches r.cfg false).length := by unfold nm at hi; omega
    obtain ⟨m, dup, h1, h2, h3⟩ := step i hi'
    refine .next ?_
    show Will _ _ _ _ _ _ (recvPeer r i _)
    unfold recvPeer
    refine .recv (m := .wire m) rfl (by rw [hR]; exact h1) (by rw [hR]; exact hτ) ?_
    simp only [h2, h3, List.isEmpty_map, allBatches_empty_iff r.cfg hc.cfg false i hi']
    rw [if_neg (by unfold nm at hi; simp; omega), ← Ecdh.take_flatten_succ _ _ hi']
    refine ih (i + 1) (by omega) _ _ _ (by simp [hR]) hWf ?_
    rw [hR]; show 2 * i + 1 + 1 ≤ _; omega

theorem dualAt_length {r : Run α P} {L : Nat} (hc : r.Lawful L) (j : Nat) (hj : j < (r.items true).length) :
    (dualAt r j).length = r.cfg.dualSize := by
  unfold dualAt
  rw [List.getElem?_eq_getElem hj]
  simp only [Option.map_some, Option.getD_some, dual2, cipher, List.length_drop, hc.cfg.serLen]
  have := hc.cfg.dualLe
  omega

theorem ordAt_lt {r : Run α P} {L : Nat} (hc : r.Lawful L) {k j : Nat} (hj : j ∈ ordAt r k) :
    j < (r.items true).length := by
  obtain ⟨p, hp, rfl⟩ := List.mem_map.mp hj
  have h1 := perm_lt hc hp
  have h2 := cnt_le r (k + 1)
  rw [cnt_succ] at h2
  omega

theorem will_rDual {r : Run α P} {L : Nat} (hc : r.Lawful L) (f : Found) :
    ∀ k i, i + k + 1 = nm r true → ∀ (R W : Queue → Nat) τ, R .xab = i → W .frDual = 0 → τ ≤ 4 * i + 3 →
      Will (net r) (plan r f) .rDual τ R W (.next (.recv i ((ordTo r i).map (fun j => (dualAt r j, 0))))) := by
  have step : ∀ i, i < nm r true →
      ((plan r f).h .xab)[i]? = some (.wire (encode ((ordAt r i).map (dualAt r)) [] i)) ∧
      decode i (encode ((ordAt r i).map (dualAt r)) [] i) = some ((ordAt r i).map (dualAt r), []) ∧
      (ordAt r i).isEmpty = decide (i + 1 = nm r true) := by
    intro i hi
    have hlen : (ordAt r i).length = (bat r i).length := by simp [ordAt, perm_length hc]
    refine ⟨?_, ?_, ?_⟩
    · show ((List.range (nm r true)).map _)[i]? = _
      rw [List.getElem?_map, List.getElem?_range hi]; rfl
    · rw [decode_encode r.cfg.dualSize _ _ i i ?_ ?_ rfl]
      · simp
      · rw [List.length_map, hlen, bat_eq r i hi]; exact allBatches_small r.cfg hc.cfg true i hi
      · intro x hx
        obtain ⟨j, hj, rfl⟩ := List.mem_map.mp hx
        exact dualAt_length hc j (ordAt_lt hc hj)
    · rw [Bool.eq_iff_iff, List.isEmpty_iff_length_eq_zero, hlen, ← List.isEmpty_iff_length_eq_zero, bat_eq r i hi,
        allBatches_empty_iff r.cfg hc.cfg true i hi]
      rfl
  intro k
  induction k with
  | zero =>
    intro i hi R W τ hR hWf hτ
    obtain ⟨h1, h2, h3⟩ := step i (by omega)
    refine .next ?_
    show Will _ _ _ _ _ _ (recvDual i _)
    unfold recvDual
    refine .recv (m := .wire (encode ((ordAt r i).map (dualAt r)) [] i)) rfl (by rw [hR]; exact h1)
      (by rw [hR]; exact hτ) ?_
    simp only [h2, List.isEmpty_map, List.map_map]
    rw [if_pos (by rw [h3]; simpa using hi)]
    have hN : i + 1 = nm r true := by omega
    have hst : (ordTo r i).map (fun j => (dualAt r j, 0)) ++ (ordAt r i).map ((fun x => (x, 0)) ∘ dualAt r) =
        selfStore r := by
      unfold selfStore
      rw [← hN, ordTo_succ, List.map_append]; rfl
    rw [hst]
    refine .send rfl ?_ ?_ ?_
    · rw [hWf]; rfl
    · rw [hR, hWf]; show 4 * i + 3 + 1 ≤ 4 * nm r true + 0; omega
    · refine .halt rfl (fun x hx => ?_) (fun x hx => ?_)
      · cases x <;> first | (exfalso; revert hx; simp [net, reader]; done) | skip
        rw [Function.update_self, hR, hN]; simp [plan]
      · cases x <;> first | (exfalso; revert hx; simp [net, writer]; done) | skip
        rw [Function.update_self, hWf]; rfl
  | succ k ih =>
    intro i hi R W τ hR hWf hτ
    obtain ⟨h1, h2, h3⟩ := step i (by omega)
    refine .next ?_
    show Will _ _ _ _ _ _ (recvDual i _)
    unfold recvDual
    refine .recv (m := .wire (encode ((ordAt r i).map (dualAt r)) [] i)) rfl (by rw [hR]; exact h1)
      (by rw [hR]; exact hτ) ?_
    simp only [h2, List.isEmpty_map, List.map_map]
    rw [if_neg (by rw [h3]; simp; omega)]
    have hst : (ordTo r i).map (fun j => (dualAt r j, 0)) ++ (ordAt r i).map ((fun x => (x, 0)) ∘ dualAt r) =
        (ordTo r (i + 1)).map (fun j => (dualAt r j, 0)) := by
      rw [ordTo_succ, List.map_append]; rfl
    rw [hst]
    refine ih (i + 1) (by omega) _ _ _ (by simp [hR]) hWf ?_
    rw [hR]; show 4 * i + 3 + 1 ≤ _; omega

theorem answer_length (r : Run α P) (f : Found) : (answer r f).length = f.lines.length := by
  unfold answer restore
  have key : ∀ (es : List Entry) (l : List Nat) (acc : List (Nat × Nat)),
      (es.foldl (restoreOne l) acc).length = acc.length := by
    intro es l
    induction es with
    | nil => intro acc; rfl
    | cons e es ih =>
      intro acc
      rw [List.foldl_cons, ih]
      unfold restoreOne
      split <;> simp
  rw [key]; simp

theorem will_rMain {r : Run α P} (f : Found) (hf : found r (selfStore r) (peerStore r) = some f) :
    Will (net r) (plan r f) .rMain 0 (fun _ => 0) (fun _ => 0) (.next (start r .rMain)) := by
  refine .next ?_
  show Will _ _ _ _ _ _ (receiverMain r)
  unfold receiverMain
  refine .recv (m := .nums []) rfl rfl (Nat.zero_le _) ?_
  refine .recv (m := .store (peerStore r)) rfl rfl (by show tE r + 0 + 1 ≤ tE r + 1 + 0; omega) ?_
  refine .recv (m := .store (selfStore r)) rfl rfl (by show tE r + 1 + 0 + 1 ≤ tE r + 2 + 0; omega) ?_
  simp only [hf]
  refine .send rfl rfl (by show tE r + 2 + 0 + 1 ≤ tE r + 10 + 2 * 0; omega) ?_
  refine .send rfl rfl (by show tE r + 10 + 2 * 0 + 1 ≤ tE r + 10 + 2 * 1; omega) ?_
  have htail : ∀ (W : Queue → Nat) τ, τ ≤ tE r + 21 → W .idx = ((plan r f).h .idx).length →
      Will (net r) (plan r f) .rMain τ
        (Function.update (Function.update (Function.update (fun _ => 0) .frMask 1) .frPeer 1) .frDual 1) W
        (.recv .back fun
          | .nums l =>
            if f.lines.length ≠ l.length then .fail
            else .halt (.out ⟨some (l.zip (f.lines.map (·.2.2))), f.real, f.lines.length⟩)
          | _ => .fail) := by
    intro W τ hτ hW
    refine .recv (m := .nums ((answer r f).map Prod.fst)) rfl rfl hτ ?_
    simp only [List.length_map, answer_length, ne_eq, not_true, if_false]
    refine .halt rfl (fun x hx => ?_) (fun x hx => ?_)
    · cases x <;> first | (exfalso; revert hx; simp [net, reader]; done) | rfl
    · cases x <;> first | (exfalso; revert hx; simp [net, writer]; done) | skip
      exact hW
  cases hb : r.broadcast with
  | false =>
    simp only [Bool.false_eq_true, if_false]
    refine htail _ _ ?_ ?_
    · show tE r + 10 + 2 * 1 + 1 ≤ _; omega
    · simp [plan, hb]
  | true =>
    simp only [if_true]
    refine .send rfl ?_ (by show tE r + 10 + 2 * 1 + 1 ≤ tE r + 10 + 2 * 2; omega) ?_
    · simp [plan, hb]
    · refine htail _ _ ?_ ?_
      · show tE r + 10 + 2 * 2 + 1 ≤ _; omega
      · simp [plan, hb]

theorem will_sMain {r : Run α P} (f : Found) (hn : f.lines.length % 2 ^ 32 = min f.real r.threshold) :
    Will (net r) (plan r f) .sMain 0 (fun _ => 0) (fun _ => 0) (.next (start r .sMain)) := by
  refine .next ?_
  show Will _ _ _ _ _ _ (senderMain r)
  unfold senderMain
  refine .recv (m := .nums []) rfl rfl (Nat.zero_le _) ?_
  refine .recv (m := .cache (cacheTo r (nm r true))) rfl rfl (by show tE r + 0 + 1 ≤ tE r + 1 + 0; omega) ?_
  refine .recv (m := .nums (f.lines.map (·.1))) rfl rfl (by show tE r + 1 + 0 + 1 ≤ tE r + 11 + 2 * 0; omega) ?_
  refine .recv (m := .count f.real) rfl rfl (by show tE r + 11 + 2 * 0 + 1 ≤ tE r + 11 + 2 * 1; omega) ?_
  simp only [List.length_map]
  rw [if_neg (by simpa using hn)]
  cases hb : r.broadcast with
  | false =>
    simp only [Bool.false_eq_true, if_false]
    refine .send rfl rfl (by show tE r + 11 + 2 * 1 + 1 ≤ tE r + 20 + 2 * 0; omega) ?_
    refine .halt (by simp [plan, hb]) (fun x hx => ?_) (fun x hx => ?_)
    · cases x <;> first | (exfalso; revert hx; simp [net, reader]; done) | simp [plan, hb]
    · cases x <;> first | (exfalso; revert hx; simp [net, writer]; done) | simp [plan]
  | true =>
    simp only [if_true]
    refine .recv (m := .nums (f.lines.map (·.2.1))) rfl ?_ (by show tE r + 11 + 2 * 1 + 1 ≤ tE r + 11 + 2 * 2; omega) ?_
    · simp [plan, hb]
    · refine .send rfl rfl (by show tE r + 11 + 2 * 2 + 1 ≤ tE r + 20 + 2 * 0; omega) ?_
      simp only [List.length_map, lt_irrefl, if_false]
      refine .halt (by simp [plan, hb, answer]) (fun x hx => ?_) (fun x hx => ?_)
      · cases x <;> first | (exfalso; revert hx; simp [net, reader]; done) | simp [plan, hb]
      · cases x <;> first | (exfalso; revert hx; simp [net, writer]; done) | simp [plan]

instance : Fintype Task where
  elems := {.sMask, .sShuffle, .sMain, .rMask, .rPeer, .rDual, .rMain}
  complete t := by cases t <;> decide

/-- Every schedule ends in the planned state. -/
theorem run_planned {r : Run α P} {L : Nat} (hc : r.Lawful L) (f : Found)
    (hf : found r (selfStore r) (peerStore r) = some f) (hn : f.lines.length % 2 ^ 32 = min f.real r.threshold) :
    ∃ bound, ∀ sched : List Task,
      (∀ t, ((net r).exec sched (net r).init).1.task t ≠ .fail) ∧ ((net r).exec sched (net r).init).2 ≤ bound ∧
      ((net r).Stuck ((net r).exec sched (net r).init).1 →
        (∀ t, ((net r).exec sched (net r).init).1.task t = .halt ((plan r f).final t)) ∧
        (∀ q, ((net r).exec sched (net r).init).1.queue q = []) ∧
        ∀ q, ((net r).exec sched (net r).init).1.log q = (plan r f).h q) := by
  have hx := nm_pos r true
  have hy := nm_pos r false
  refine planned' (net r) (plan r f) ?_ ?_ ?_ ?_
  · intro q i hi
    cases q <;> simp [plan] at * <;> (try unfold tE) <;> omega
  · intro q i hs hi
    cases q <;> simp [plan, net, window] at * <;> omega
  · intro q w hw
    cases q <;> first | exact hc.base.window w hw | simp [net, window] at hw
  · intro t
    cases t
    · exact will_maskSelf (N := net r) (Pl := plan r f) hc (me := false) (q := .yb) (fut := .fsMask) (by simp)
        (fun _ _ => rfl) rfl rfl rfl rfl (fun i => by simp [plan]) (by simp [plan]; omega) rfl
        (fun x => by cases x <;> simp [net, reader, writer]) (fun x hx => by cases x <;> simp_all [net, writer])
        (nm r false - 1) 0 (by omega) _ _ 0 rfl rfl (Nat.zero_le _)
    · have := will_sShuffle hc f (nm r true - 1) 0 (by omega) (fun _ => 0) (fun _ => 0) 0 rfl rfl rfl (Nat.zero_le _)
      simp only [cnt, cacheTo, ordTo, List.take_zero, List.range_zero, List.flatMap_nil, List.flatten_nil, List.length_nil,
        List.zipIdx_nil, List.map_nil] at this
      exact this
    · exact will_sMain f hn
    · exact will_maskSelf (N := net r) (Pl := plan r f) hc (me := true) (q := .xa) (fut := .frMask) (by simp)
        (fun _ _ => rfl) rfl rfl rfl rfl (fun i => by simp [plan]) (by simp [plan]; omega) rfl
        (fun x => by cases x <;> simp [net, reader, writer]) (fun x hx => by cases x <;> simp_all [net, writer])
        (nm r true - 1) 0 (by omega) _ _ 0 rfl rfl (Nat.zero_le _)
    · have := will_rPeer hc f (nm r false - 1) 0 (by omega) (fun _ => 0) (fun _ => 0) 0 rfl rfl (Nat.zero_le _)
      simp only [List.take_zero, List.flatten_nil, List.map_nil] at this
      exact this
    · have := will_rDual hc f (nm r true - 1) 0 (by omega) (fun _ => 0) (fun _ => 0) 0 rfl rfl (Nat.zero_le _)
      simp only [ordTo, List.range_zero, List.flatMap_nil, List.map_nil] at this
      exact this
    · exact will_rMain f hf

end Psi.Threshold
