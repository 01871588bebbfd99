import Verif.Ecdh3.Lemmas

/-! # The traffic of a complete run of three-party ECDH-PSI -/

namespace Psi.Ecdh3
open Psi.Net
open Psi.Ecdh (Bytes Msg encode decode decode_encode)

variable {α P : Type}

/-- What the parameters must satisfy: a serialized point has `GetMaskLength` bytes and deserializes to
the same point, `dual_mask_size` is at most that, batches are not empty and fit the 32-bit counter, a
throttle window is not 0. -/
structure Cfg.Lawful (c : Cfg α P) : Prop where
  serLen : ∀ p, (c.ser p).length = c.maskLen
  round : ∀ p, c.deser (c.ser p) = p
  dualLe : c.dualSize ≤ c.maskLen
  batchPos : 0 < c.batch
  batchLt : c.batch < 2 ^ 32
  windowPos : ∀ w, c.window = some w → 0 < w

def zcL (c : Cfg α P) : List Bytes := (c.items .master).map (fun x => c.ser (c.mask .master (c.hash x)))
def zcaL (c : Cfg α P) : List Bytes :=
  (zcL c).map (fun x => id (c.ser (c.mask .calculator (c.deser x))))
def zcabL (c : Cfg α P) : List Bytes :=
  (zcaL c).map (fun x => tail c.dualSize (c.ser (c.mask .partner (c.deser x))))
def xaL (c : Cfg α P) : List Bytes := (c.items .calculator).map (fun x => c.ser (c.mask .calculator (c.hash x)))
def ybL (c : Cfg α P) : List Bytes := c.shuffled.map (fun x => c.ser (c.mask .partner (c.hash x)))
def xabL (c : Cfg α P) : List Bytes := shuffleAnswer c (xaL c)
def peerL (c : Cfg α P) : List Bytes :=
  (ybL c).map (fun x => tail c.maskLen (c.ser (c.mask .calculator (c.deser x))))
def interL (c : Cfg α P) : List Bytes := partnersInter (xabL c) (peerL c)

/-- Times at which the three parts of `PartnersPsi` can be over. -/
def tX (c : Cfg α P) : Nat := 2 * nb c.batch (xaL c) + 2
def tJ (c : Cfg α P) : Nat := tX c + 2 * nb c.batch (xabL c) + 2 * nb c.batch (ybL c) + 10

def plan (c : Cfg α P) : Plan Task Queue Packet (St α) where
  h
    | .zc => frames c.batch (zcL c)
    | .zca => frames c.batch (zcaL c)
    | .zcab => frames c.batch (zcabL c)
    | .xa => frames c.batch (xaL c)
    | .yb => frames c.batch (ybL c)
    | .xab => frames c.batch (xabL c)
    | .inter => frames c.batch (interL c)
    | .futSelf => [.val []]
    | .futPeer => [.val (peerL c)]
    | .futDup => [.val (xabL c)]
  ts
    | .zc, i => 6 * i
    | .zca, i => 6 * i + 2
    | .zcab, i => 6 * i + 4
    | .xa, i => 2 * i
    | .yb, i => 2 * i
    | .xab, i => tX c + 2 * i
    | .inter, i => tJ c + 10 + 2 * i
    | .futSelf, i => tX c + i
    | .futPeer, i => 2 * nb c.batch (ybL c) + 2 + i
    | .futDup, i => tX c + 2 * nb c.batch (xabL c) + 2 + i
  tr
    | .zc, i => 6 * i + 1
    | .zca, i => 6 * i + 3
    | .zcab, i => 6 * i + 5
    | .xa, i => 2 * i + 1
    | .yb, i => 2 * i + 1
    | .xab, i => tX c + 2 * i + 1
    | .inter, i => tJ c + 11 + 2 * i
    | .futSelf, i => tJ c + i
    | .futPeer, i => tJ c + 1 + i
    | .futDup, i => tJ c + 2 + i
  final
    | .masterRecv => .out (zcabL c)
    | .masterPartners => .out (interL c)
    | _ => .out []

theorem tail_length {n : Nat} {b : Bytes} (h : n ≤ b.length) : (tail n b).length = n := by
  unfold tail; rw [List.length_drop]; omega

theorem setIntersection_sub {l m : List Bytes} {x : Bytes} (h : x ∈ Std.setIntersection l m) : x ∈ l := by
  fun_induction Std.setIntersection l m with
  | case1 => simp at h
  | case2 => simp at h
  | case3 a l b m hab ih => exact List.mem_cons_of_mem _ (ih h)
  | case4 a l b m hab hba ih => exact ih h
  | case5 a l b m hab hba ih =>
    rcases List.mem_cons.mp h with rfl | h
    · exact List.mem_cons_self
    · exact List.mem_cons_of_mem _ (ih h)

section lengths
variable (c : Cfg α P) (hc : c.Lawful)
include hc

theorem zcL_len : ∀ x ∈ zcL c, x.length = c.maskLen := by
  intro x hx; obtain ⟨y, _, rfl⟩ := List.mem_map.mp hx; exact hc.serLen _
theorem zcaL_len : ∀ x ∈ zcaL c, x.length = c.maskLen := by
  intro x hx; obtain ⟨y, _, rfl⟩ := List.mem_map.mp hx; exact hc.serLen _
theorem zcabL_len : ∀ x ∈ zcabL c, x.length = c.dualSize := by
  intro x hx; obtain ⟨y, _, rfl⟩ := List.mem_map.mp hx
  exact tail_length (by rw [hc.serLen]; exact hc.dualLe)
theorem xaL_len : ∀ x ∈ xaL c, x.length = c.maskLen := by
  intro x hx; obtain ⟨y, _, rfl⟩ := List.mem_map.mp hx; exact hc.serLen _
theorem ybL_len : ∀ x ∈ ybL c, x.length = c.maskLen := by
  intro x hx; obtain ⟨y, _, rfl⟩ := List.mem_map.mp hx; exact hc.serLen _
theorem xabL_len : ∀ x ∈ xabL c, x.length = c.maskLen := by
  intro x hx
  obtain ⟨y, _, rfl⟩ := List.mem_map.mp (Std.mem_sort.mp hx)
  exact tail_length (by rw [hc.serLen])
theorem interL_len : ∀ x ∈ interL c, x.length = c.maskLen := by
  intro x hx
  exact xabL_len c hc x (Std.mem_sort.mp (setIntersection_sub hx))

end lengths

theorem will_masterMask (c : Cfg α P) (hc : c.Lawful) :
    Will (net c) (plan c) .masterMask 0 (fun _ => 0) (fun _ => 0) (.next (start c .masterMask)) := by
  have := will_maskSelf (N := net c) (Pl := plan c) c hc.batchPos (t := .masterMask) (r := .master) (q := .zc)
    (done := .halt (.out [])) (items := c.items .master) (fun _ _ => rfl) rfl rfl (fun i => by simp [plan])
    (nb c.batch (c.items .master)) 0 (by omega) (fun _ => 0) (fun _ => 0) 0 rfl (by simp [plan])
    (fun W' h1 h2 => .halt rfl (fun q hq => by cases q <;> simp_all [net, reader])
      (fun q hq => by cases q <;> simp_all [net, writer]))
  simpa [start] using this

theorem will_masterRecv (c : Cfg α P) (hc : c.Lawful) :
    Will (net c) (plan c) .masterRecv 0 (fun _ => 0) (fun _ => 0) (.next (start c .masterRecv)) := by
  have := will_recvLoop (N := net c) (Pl := plan c) hc.batchPos hc.batchLt (t := .masterRecv) (q := .zcab)
    (done := fun l => .halt (.out l)) (f := id) (items := zcabL c) (zcabL_len c hc) (fun _ _ => rfl) rfl rfl
    (fun i => by simp [plan])
    (nb c.batch (zcabL c)) 0 (by omega) (fun _ => 0) (fun _ => 0) 0 rfl (by simp [plan])
    (fun R' h1 h2 => .halt (by simp [plan]) (fun q hq => by cases q <;> simp_all [net, reader])
      (fun q hq => by cases q <;> simp_all [net, writer]))
  simpa [start] using this

theorem will_masterPartners (c : Cfg α P) (hc : c.Lawful) :
    Will (net c) (plan c) .masterPartners 0 (fun _ => 0) (fun _ => 0) (.next (start c .masterPartners)) := by
  have := will_recvLoop (N := net c) (Pl := plan c) hc.batchPos hc.batchLt (t := .masterPartners) (q := .inter)
    (done := fun l => .halt (.out l)) (f := id) (items := interL c) (interL_len c hc) (fun _ _ => rfl) rfl rfl
    (fun i => by simp [plan])
    (nb c.batch (interL c)) 0 (by omega) (fun _ => 0) (fun _ => 0) 0 rfl (by simp [plan])
    (fun R' h1 h2 => .halt (by simp [plan]) (fun q hq => by cases q <;> simp_all [net, reader])
      (fun q hq => by cases q <;> simp_all [net, writer]))
  simpa [start] using this

theorem will_calcForward (c : Cfg α P) (hc : c.Lawful) :
    Will (net c) (plan c) .calcForward 0 (fun _ => 0) (fun _ => 0) (.next (start c .calcForward)) := by
  exact will_forward (N := net c) (Pl := plan c) c hc.batchPos hc.batchLt (t := .calcForward) (r := .calculator)
    (q := .zc) (q' := .zca) (f := id) (items := zcL c) (zcL_len c hc) (fun _ => rfl) rfl rfl rfl rfl
    (fun i => by simp [plan]) (fun i => by simp [plan]; omega)
    (nb c.batch (zcL c)) 0 (by omega) (fun _ => 0) (fun _ => 0) 0 rfl rfl (by simp [plan])
    (fun R' W' h1 h2 h3 h4 => .halt rfl (fun q hq => by cases q <;> simp_all [net, reader])
      (fun q hq => by cases q <;> simp_all [net, writer]))

theorem will_partForward (c : Cfg α P) (hc : c.Lawful) :
    Will (net c) (plan c) .partForward 0 (fun _ => 0) (fun _ => 0) (.next (start c .partForward)) := by
  exact will_forward (N := net c) (Pl := plan c) c hc.batchPos hc.batchLt (t := .partForward) (r := .partner)
    (q := .zca) (q' := .zcab) (f := tail c.dualSize) (items := zcaL c) (zcaL_len c hc) (fun _ => rfl) rfl rfl rfl rfl
    (fun i => by simp [plan]) (fun i => by simp [plan]; omega)
    (nb c.batch (zcaL c)) 0 (by omega) (fun _ => 0) (fun _ => 0) 0 rfl rfl (by simp [plan])
    (fun R' W' h1 h2 h3 h4 => .halt rfl (fun q hq => by cases q <;> simp_all [net, reader])
      (fun q hq => by cases q <;> simp_all [net, writer]))

theorem will_partSelf (c : Cfg α P) (hc : c.Lawful) :
    Will (net c) (plan c) .partSelf 0 (fun _ => 0) (fun _ => 0) (.next (start c .partSelf)) := by
  have := will_maskSelf (N := net c) (Pl := plan c) c hc.batchPos (t := .partSelf) (r := .partner) (q := .yb)
    (done := .halt (.out [])) (items := c.shuffled) (fun _ _ => rfl) rfl rfl (fun i => by simp [plan])
    (nb c.batch c.shuffled) 0 (by omega) (fun _ => 0) (fun _ => 0) 0 rfl (by simp [plan])
    (fun W' h1 h2 => .halt rfl (fun q hq => by cases q <;> simp_all [net, reader])
      (fun q hq => by cases q <;> simp_all [net, writer]))
  simpa [start] using this

theorem will_calcSelf (c : Cfg α P) (hc : c.Lawful) :
    Will (net c) (plan c) .calcSelf 0 (fun _ => 0) (fun _ => 0) (.next (start c .calcSelf)) := by
  have := will_maskSelf (N := net c) (Pl := plan c) c hc.batchPos (t := .calcSelf) (r := .calculator) (q := .xa)
    (done := .send .futSelf (.val []) (.halt (.out []))) (items := c.items .calculator) (fun _ _ => rfl) rfl rfl
    (fun i => by simp [plan])
    (nb c.batch (c.items .calculator)) 0 (by omega) (fun _ => 0) (fun _ => 0) 0 rfl (by simp [plan])
    (fun W' h1 h2 => by
      have h0 := h2 .futSelf (by simp)
      refine .send rfl (by rw [h0]; rfl) ?_ ?_
      · rw [h0]
        show 2 * _ + 1 ≤ tX c + 0
        unfold tX xaL; rw [nb_map]; omega
      · refine .halt rfl (fun q hq => by cases q <;> simp_all [net, reader]) (fun q hq => ?_)
        cases q <;> first | (exfalso; revert hq; simp [net, writer]; done) | skip
        · rw [Function.update_of_ne (by simp)]; exact h1
        · rw [Function.update_self, h0]; rfl)
  simpa [start] using this

theorem will_calcPeer (c : Cfg α P) (hc : c.Lawful) :
    Will (net c) (plan c) .calcPeer 0 (fun _ => 0) (fun _ => 0) (.next (start c .calcPeer)) := by
  have := will_recvLoop (N := net c) (Pl := plan c) hc.batchPos hc.batchLt (t := .calcPeer) (q := .yb)
    (done := fun l => .send .futPeer (.val l) (.halt (.out [])))
    (f := fun x => tail c.maskLen (c.ser (c.mask .calculator (c.deser x)))) (items := ybL c)
    (ybL_len c hc) (fun _ _ => rfl) rfl rfl
    (fun i => by simp [plan])
    (nb c.batch (ybL c)) 0 (by omega) (fun _ => 0) (fun _ => 0) 0 rfl (by simp [plan])
    (fun R' h1 h2 => by
      refine .send rfl rfl ?_ ?_
      · show 2 * _ + 1 + 1 ≤ 2 * nb c.batch (ybL c) + 2 + 0
        omega
      · refine .halt rfl (fun q hq => by cases q <;> simp_all [net, reader]) (fun q hq => ?_)
        cases q <;> first | (exfalso; revert hq; simp [net, writer]; done) | skip
        rw [Function.update_self]; rfl)
  simpa [start] using this

theorem will_calcDup (c : Cfg α P) (hc : c.Lawful) :
    Will (net c) (plan c) .calcDup 0 (fun _ => 0) (fun _ => 0) (.next (start c .calcDup)) := by
  have := will_recvLoop (N := net c) (Pl := plan c) hc.batchPos hc.batchLt (t := .calcDup) (q := .xab)
    (done := fun l => .send .futDup (.val l) (.halt (.out [])))
    (f := id) (items := xabL c)
    (xabL_len c hc) (fun _ _ => rfl) rfl rfl
    (fun i => by simp [plan])
    (nb c.batch (xabL c)) 0 (by omega) (fun _ => 0) (fun _ => 0) 0 rfl (by simp [plan])
    (fun R' h1 h2 => by
      refine .send rfl (by rw [List.map_id]; rfl) ?_ ?_
      · show tX c + 2 * _ + 1 + 1 ≤ tX c + 2 * nb c.batch (xabL c) + 2 + 0
        omega
      · refine .halt rfl (fun q hq => by cases q <;> simp_all [net, reader]) (fun q hq => ?_)
        cases q <;> first | (exfalso; revert hq; simp [net, writer]; done) | skip
        rw [Function.update_self]; rfl)
  simpa [start] using this

theorem will_partShuffle (c : Cfg α P) (hc : c.Lawful) :
    Will (net c) (plan c) .partShuffle 0 (fun _ => 0) (fun _ => 0) (.next (start c .partShuffle)) := by
  have := will_recvLoop (N := net c) (Pl := plan c) hc.batchPos hc.batchLt (t := .partShuffle) (q := .xa)
    (done := fun l => .next (.send 0 (shuffleAnswer c l)))
    (f := id) (items := xaL c)
    (xaL_len c hc) (fun _ _ => rfl) rfl rfl
    (fun i => by simp [plan])
    (nb c.batch (xaL c)) 0 (by omega) (fun _ => 0) (fun _ => 0) 0 rfl (by simp [plan])
    (fun R' h1 h2 => by
      rw [List.map_id]
      have := will_sendImpl (N := net c) (Pl := plan c) c hc.batchPos (t := .partShuffle) (q := .xab)
        (items := xabL c) (fun _ _ => rfl) rfl rfl (fun i => by simp [plan])
        (nb c.batch (xabL c)) 0 (by omega) R' (fun _ => 0) (2 * nb c.batch (xaL c) + 1 + 1) rfl
        (by show _ ≤ tX c + 2 * 0; unfold tX; omega)
        (fun W' h3 h4 => .halt rfl (fun q hq => by cases q <;> simp_all [net, reader])
          (fun q hq => by cases q <;> simp_all [net, writer]))
      rw [Nat.zero_mul] at this
      exact this)
  simpa [start] using this

theorem will_calcMain (c : Cfg α P) (hc : c.Lawful) :
    Will (net c) (plan c) .calcMain 0 (fun _ => 0) (fun _ => 0) (.next (start c .calcMain)) := by
  refine .next ?_
  refine .recv (m := .val []) rfl rfl (Nat.zero_le _) ?_
  refine .recv (m := .val (peerL c)) rfl rfl (by show tJ c + 0 + 1 ≤ tJ c + 1 + 0; omega) ?_
  refine .recv (m := .val (xabL c)) rfl rfl (by show tJ c + 1 + 0 + 1 ≤ tJ c + 2 + 0; omega) ?_
  have := will_sendImpl (N := net c) (Pl := plan c) c hc.batchPos (t := .calcMain) (q := .inter)
    (items := interL c) (fun _ _ => rfl) rfl rfl (fun i => by simp [plan])
    (nb c.batch (interL c)) 0 (by omega)
    (Function.update (Function.update (Function.update (fun _ => 0) .futSelf 1) .futPeer 1) .futDup 1)
    (fun _ => 0) (tJ c + 2 + 0 + 1) rfl
    (by show _ ≤ tJ c + 10 + 2 * 0; omega)
    (fun W' h3 h4 => .halt rfl (fun q hq => by
        cases q <;> first | (exfalso; revert hq; simp [net, reader]; done) | rfl)
      (fun q hq => by cases q <;> simp_all [net, writer]))
  rw [Nat.zero_mul] at this
  exact this

instance : Fintype Task where
  elems := {.masterMask, .masterRecv, .masterPartners, .calcForward, .partForward, .calcSelf, .calcPeer, .calcDup,
    .calcMain, .partSelf, .partShuffle}
  complete t := by cases t <;> decide

/-- Every schedule ends in the planned state. -/
theorem run_planned (c : Cfg α P) (hc : c.Lawful) :
    ∃ bound, ∀ sched : List Task,
      (∀ t, ((net c).exec sched (net c).init).1.task t ≠ .fail) ∧ ((net c).exec sched (net c).init).2 ≤ bound ∧
      ((net c).Stuck ((net c).exec sched (net c).init).1 →
        (∀ t, ((net c).exec sched (net c).init).1.task t = .halt ((plan c).final t)) ∧
        (∀ q, ((net c).exec sched (net c).init).1.queue q = []) ∧
        ∀ q, ((net c).exec sched (net c).init).1.log q = (plan c).h q) := by
  refine planned' (net c) (plan c) ?_ ?_ ?_ ?_
  · intro q i hi
    cases q <;> simp [plan] at * <;> (unfold tJ; omega)
  · intro q i hs hi
    cases q <;> simp [plan, net, window] at * <;> omega
  · intro q w hw
    cases q <;> first | exact hc.windowPos w hw | simp [net, window] at hw
  · intro t
    cases t
    · exact will_masterMask c hc
    · exact will_masterRecv c hc
    · exact will_masterPartners c hc
    · exact will_calcForward c hc
    · exact will_partForward c hc
    · exact will_calcSelf c hc
    · exact will_calcPeer c hc
    · exact will_calcDup c hc
    · exact will_calcMain c hc
    · exact will_partSelf c hc
    · exact will_partShuffle c hc

end Psi.Ecdh3
