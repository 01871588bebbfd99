import Verif.Ecdh3.Model
import Verif.Net.Lemmas
import Verif.Std.Lemmas
import Verif.Ecdh.WireLemmas

/-! # Loops of three-party ECDH-PSI against their traffic -/

namespace Psi.Ecdh3
open Psi.Net
open Psi.Ecdh (Bytes Msg encode decode decode_encode)

variable {α β P : Type}

/-- Number of non-empty batches. -/
def nb (B : Nat) (l : List β) : Nat := (l.length + B - 1) / B

def batchAt (B i : Nat) (l : List β) : List β := (l.drop (i * B)).take B

theorem nb_map (B : Nat) (f : α → β) (l : List α) : nb B (l.map f) = nb B l := by simp [nb]

theorem batchAt_map (B i : Nat) (f : α → β) (l : List α) : batchAt B i (l.map f) = (batchAt B i l).map f := by
  simp [batchAt, List.map_take, List.map_drop]

theorem lt_nb {B : Nat} (hB : 0 < B) (l : List β) (i : Nat) : i < nb B l ↔ i * B < l.length := by
  unfold nb
  rw [Nat.lt_div_iff_mul_lt hB]
  omega

theorem batchAt_isEmpty {B : Nat} (hB : 0 < B) (l : List β) (i : Nat) :
    (batchAt B i l).isEmpty = decide (nb B l ≤ i) := by
  have h := lt_nb hB l i
  unfold batchAt
  rw [Bool.eq_iff_iff, decide_eq_true_iff, List.isEmpty_iff_length_eq_zero, List.length_take, List.length_drop]
  omega

theorem take_succ_batch (B i : Nat) (l : List β) :
    l.take (i * B) ++ batchAt B i l = l.take ((i + 1) * B) := by
  unfold batchAt
  rw [Nat.add_mul, Nat.one_mul, List.take_add]

/-- The messages that carry a list. -/
def frames (B : Nat) (l : List Bytes) : List Packet :=
  (List.range (nb B l + 1)).map (fun i => .wire (encode (batchAt B i l) [] i))

@[simp] theorem frames_length (B : Nat) (l : List Bytes) : (frames B l).length = nb B l + 1 := by simp [frames]

theorem frames_get (B : Nat) (l : List Bytes) (i : Nat) (h : i ≤ nb B l) :
    (frames B l)[i]? = some (.wire (encode (batchAt B i l) [] i)) := by
  simp [frames, List.getElem?_range (show i < nb B l + 1 by omega)]

theorem decode_batch {B L : Nat} (hB : B < 2 ^ 32) (l : List Bytes) (hl : ∀ x ∈ l, x.length = L) (i : Nat) :
    decode i (encode (batchAt B i l) [] i) = some (batchAt B i l, []) := by
  rw [decode_encode L _ _ i i ?_ ?_ rfl]
  · simp
  · have : (batchAt B i l).length ≤ B := by simp [batchAt]
    omega
  · intro x hx
    exact hl x (List.mem_of_mem_drop (List.mem_of_mem_take hx))

variable {N : Sys Task Queue Packet (St α)} {Pl : Plan Task Queue Packet (St α)}

/-- A masking loop sends the frames of its masked items. -/
theorem will_maskSelf (c : Cfg α P) (hB : 0 < c.batch) {t : Task} {r : Role} {q : Queue} {done : Code α}
    {items : List α}
    (hb : ∀ i l, N.body t (.mask i l) = maskSelf c r q done i l) (hw : N.writer q = t)
    (hh : Pl.h q = frames c.batch (items.map (fun x => c.ser (c.mask r (c.hash x)))))
    (hmono : ∀ i, Pl.ts q i < Pl.ts q (i + 1)) :
    ∀ k i, i + k = nb c.batch items → ∀ (R W : Queue → Nat) τ, W q = i → τ ≤ Pl.ts q i →
      (∀ W' : Queue → Nat, W' q = (Pl.h q).length → (∀ q', q' ≠ q → W' q' = W q') →
        Will N Pl t (Pl.ts q (nb c.batch items) + 1) R W' done) →
      Will N Pl t τ R W (.next (.mask i (items.drop (i * c.batch)))) := by
  intro k
  induction k with
  | zero =>
    intro i hi R W τ hWi hτ hd
    refine .next ?_
    rw [hb]
    unfold maskSelf
    have he : ((items.drop (i * c.batch)).take c.batch).isEmpty = true := by
      have := batchAt_isEmpty hB items i
      unfold batchAt at this
      rw [this]; simp; omega
    simp only [he, if_true]
    refine .send hw ?_ (by rw [hWi]; exact hτ) ?_
    · rw [hh, hWi, frames_get _ _ _ (by rw [nb_map]; omega), batchAt_map]; rfl
    · rw [hWi]
      have e : i = nb c.batch items := by omega
      subst e
      refine hd _ ?_ (fun q' hq' => Function.update_of_ne hq' _ _)
      rw [Function.update_self, hh, frames_length, nb_map]
  | succ k ih =>
    intro i hi R W τ hWi hτ hd
    refine .next ?_
    rw [hb]
    unfold maskSelf
    have he : ((items.drop (i * c.batch)).take c.batch).isEmpty = false := by
      have := batchAt_isEmpty hB items i
      unfold batchAt at this
      rw [this]; simp; omega
    simp only [he, Bool.false_eq_true, if_false]
    refine .send hw ?_ (by rw [hWi]; exact hτ) ?_
    · rw [hh, hWi, frames_get _ _ _ (by rw [nb_map]; omega), batchAt_map]; rfl
    · rw [hWi, List.drop_drop]
      have e : i * c.batch + c.batch = (i + 1) * c.batch := by rw [Nat.add_mul, Nat.one_mul]
      rw [e]
      refine ih (i + 1) (by omega) R _ _ (by simp) (hmono i) (fun W' h1 h2 => ?_)
      refine hd W' h1 (fun q' hq' => ?_)
      rw [h2 q' hq', Function.update_of_ne hq']

/-- A sending loop sends the frames of its items. -/
theorem will_sendImpl (c : Cfg α P) (hB : 0 < c.batch) {t : Task} {q : Queue} {items : List Bytes}
    (hb : ∀ i l, N.body t (.send i l) = sendImpl c q i l) (hw : N.writer q = t)
    (hh : Pl.h q = frames c.batch items)
    (hmono : ∀ i, Pl.ts q i < Pl.ts q (i + 1)) :
    ∀ k i, i + k = nb c.batch items → ∀ (R W : Queue → Nat) τ, W q = i → τ ≤ Pl.ts q i →
      (∀ W' : Queue → Nat, W' q = (Pl.h q).length → (∀ q', q' ≠ q → W' q' = W q') →
        Will N Pl t (Pl.ts q (nb c.batch items) + 1) R W' (.halt (.out []))) →
      Will N Pl t τ R W (.next (.send i (items.drop (i * c.batch)))) := by
  intro k
  induction k with
  | zero =>
    intro i hi R W τ hWi hτ hd
    refine .next ?_
    rw [hb]
    unfold sendImpl
    have he : ((items.drop (i * c.batch)).take c.batch).isEmpty = true := by
      have := batchAt_isEmpty hB items i
      unfold batchAt at this
      rw [this]; simp; omega
    simp only [he, if_true]
    refine .send hw ?_ (by rw [hWi]; exact hτ) ?_
    · rw [hh, hWi, frames_get _ _ _ (by omega)]; rfl
    · rw [hWi]
      have e : i = nb c.batch items := by omega
      subst e
      refine hd _ ?_ (fun q' hq' => Function.update_of_ne hq' _ _)
      rw [Function.update_self, hh, frames_length]
  | succ k ih =>
    intro i hi R W τ hWi hτ hd
    refine .next ?_
    rw [hb]
    unfold sendImpl
    have he : ((items.drop (i * c.batch)).take c.batch).isEmpty = false := by
      have := batchAt_isEmpty hB items i
      unfold batchAt at this
      rw [this]; simp; omega
    simp only [he, Bool.false_eq_true, if_false]
    refine .send hw ?_ (by rw [hWi]; exact hτ) ?_
    · rw [hh, hWi, frames_get _ _ _ (by omega)]; rfl
    · rw [hWi, List.drop_drop]
      have e : i * c.batch + c.batch = (i + 1) * c.batch := by rw [Nat.add_mul, Nat.one_mul]
      rw [e]
      refine ih (i + 1) (by omega) R _ _ (by simp) (hmono i) (fun W' h1 h2 => ?_)
      refine hd W' h1 (fun q' hq' => ?_)
      rw [h2 q' hq', Function.update_of_ne hq']

/-- A receiving loop collects the items. -/
theorem will_recvLoop {B L : Nat} (hB : 0 < B) (hB' : B < 2 ^ 32) {t : Task} {q : Queue} {f : Bytes → Bytes}
    {done : List Bytes → Code α} {items : List Bytes} (hL : ∀ x ∈ items, x.length = L)
    (hb : ∀ i l, N.body t (.recv i l) = recvLoop q f done i l) (hr : N.reader q = t)
    (hh : Pl.h q = frames B items)
    (hmono : ∀ i, Pl.tr q i < Pl.tr q (i + 1)) :
    ∀ k i, i + k = nb B items → ∀ (R W : Queue → Nat) τ, R q = i → τ ≤ Pl.tr q i →
      (∀ R' : Queue → Nat, R' q = (Pl.h q).length → (∀ q', q' ≠ q → R' q' = R q') →
        Will N Pl t (Pl.tr q (nb B items) + 1) R' W (done (items.map f))) →
      Will N Pl t τ R W (.next (.recv i ((items.take (i * B)).map f))) := by
  intro k
  induction k with
  | zero =>
    intro i hi R W τ hRi hτ hd
    refine .next ?_
    rw [hb]
    unfold recvLoop
    have e : i = nb B items := by omega
    have he : (batchAt B i items).isEmpty = true := by
      rw [batchAt_isEmpty hB]; simp; omega
    refine .recv hr (m := .wire (encode (batchAt B i items) [] i)) ?_ (by rw [hRi]; exact hτ) ?_
    · rw [hh, hRi, frames_get _ _ _ (by omega)]
    · simp only [decode_batch hB' items hL, he, if_true]
      rw [hRi]
      subst e
      have hall : items.take (nb B items * B) = items := by
        refine List.take_of_length_le ?_
        have := (lt_nb hB items (nb B items)).not
        omega
      rw [hall]
      refine hd _ ?_ (fun q' hq' => Function.update_of_ne hq' _ _)
      rw [Function.update_self, hh, frames_length]
  | succ k ih =>
    intro i hi R W τ hRi hτ hd
    refine .next ?_
    rw [hb]
    unfold recvLoop
    have he : (batchAt B i items).isEmpty = false := by
      rw [batchAt_isEmpty hB]; simp; omega
    refine .recv hr (m := .wire (encode (batchAt B i items) [] i)) ?_ (by rw [hRi]; exact hτ) ?_
    · rw [hh, hRi, frames_get _ _ _ (by omega)]
    · simp only [decode_batch hB' items hL, he, Bool.false_eq_true, if_false]
      rw [hRi, ← List.map_append, take_succ_batch]
      refine ih (i + 1) (by omega) _ W _ (by simp) (hmono i) (fun R' h1 h2 => ?_)
      refine hd R' h1 (fun q' hq' => ?_)
      rw [h2 q' hq', Function.update_of_ne hq']

/-- A forwarding loop turns the frames of its input into the frames of the masked input. -/
theorem will_forward (c : Cfg α P) {L : Nat} (hB : 0 < c.batch) (hB' : c.batch < 2 ^ 32) {t : Task} {r : Role}
    {q q' : Queue} {f : Bytes → Bytes} {items : List Bytes} (hL : ∀ x ∈ items, x.length = L)
    (hb : ∀ i, N.body t (.fwd i) = maskForward c r q q' f i) (hr : N.reader q = t) (hw : N.writer q' = t)
    (hh : Pl.h q = frames c.batch items)
    (hh' : Pl.h q' = frames c.batch (items.map (fun x => f (c.ser (c.mask r (c.deser x))))))
    (hm1 : ∀ i, Pl.tr q i < Pl.ts q' i) (hm2 : ∀ i, Pl.ts q' i < Pl.tr q (i + 1)) :
    ∀ k i, i + k = nb c.batch items → ∀ (R W : Queue → Nat) τ, R q = i → W q' = i → τ ≤ Pl.tr q i →
      (∀ R' W' : Queue → Nat, R' q = (Pl.h q).length → (∀ x, x ≠ q → R' x = R x) → W' q' = (Pl.h q').length →
        (∀ x, x ≠ q' → W' x = W x) →
        Will N Pl t (Pl.ts q' (nb c.batch items) + 1) R' W' (.halt (.out []))) →
      Will N Pl t τ R W (.next (.fwd i)) := by
  intro k
  induction k with
  | zero =>
    intro i hi R W τ hRi hWi hτ hd
    refine .next ?_
    rw [hb]
    unfold maskForward
    have e : i = nb c.batch items := by omega
    have he : (batchAt c.batch i items).isEmpty = true := by
      rw [batchAt_isEmpty hB]; simp; omega
    refine .recv hr (m := .wire (encode (batchAt c.batch i items) [] i)) ?_ (by rw [hRi]; exact hτ) ?_
    · rw [hh, hRi, frames_get _ _ _ (by omega)]
    · simp only [decode_batch hB' items hL, he, if_true]
      refine .send hw ?_ (by rw [hRi, hWi]; exact hm1 i) ?_
      · rw [hh', hWi, frames_get _ _ _ (by rw [nb_map]; omega), batchAt_map]
      · rw [hWi, hRi]
        subst e
        refine hd _ _ ?_ (fun x hx => Function.update_of_ne hx _ _) ?_ (fun x hx => Function.update_of_ne hx _ _)
        · rw [Function.update_self, hh, frames_length]
        · rw [Function.update_self, hh', frames_length, nb_map]
  | succ k ih =>
    intro i hi R W τ hRi hWi hτ hd
    refine .next ?_
    rw [hb]
    unfold maskForward
    have he : (batchAt c.batch i items).isEmpty = false := by
      rw [batchAt_isEmpty hB]; simp; omega
    refine .recv hr (m := .wire (encode (batchAt c.batch i items) [] i)) ?_ (by rw [hRi]; exact hτ) ?_
    · rw [hh, hRi, frames_get _ _ _ (by omega)]
    · simp only [decode_batch hB' items hL, he, Bool.false_eq_true, if_false]
      refine .send hw ?_ (by rw [hRi, hWi]; exact hm1 i) ?_
      · rw [hh', hWi, frames_get _ _ _ (by rw [nb_map]; omega), batchAt_map]
      · rw [hWi, hRi]
        refine ih (i + 1) (by omega) _ _ _ (by simp) (by simp) (hm2 i) (fun R' W' h1 h2 h3 h4 => ?_)
        refine hd R' W' h1 (fun x hx => ?_) h3 (fun x hx => ?_)
        · rw [h2 x hx, Function.update_of_ne hx]
        · rw [h4 x hx, Function.update_of_ne hx]

end Psi.Ecdh3
