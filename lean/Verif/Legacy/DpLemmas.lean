import Verif.Legacy.DpModel
import Verif.Legacy.RunLemmas
import Verif.DpPsi.Props

/-! # The bucket interface with `DP_PSI_2PC`: lemmas -/

namespace Psi.Legacy
open Psi.Coll (Prog Sys Event Does)
open Psi.Std (Bytes)
open Psi.Bucket (Item itemsFrom)
open Psi.Text (base64)

variable {D : Type}

/-! ## One bucket, any protocol for the whole world -/

/-- What the master gets of a protocol for the whole world. -/
def directOf (c : Env D) (I : Nat → List Bytes) : List Bytes :=
  c.direct (I c.master) ((c.ranks.filter (· ≠ c.master)).map I)

theorem plays_direct {c : Env D} (h2 : 2 ≤ c.world) (hn : c.nparty = false) (I : Nat → List Bytes) :
    ∃ l, Plays c l (fun r => onRun c r (I r)) (fun r => if r = c.master then directOf c I else []) := by
  have hk : members c .protocol = c.ranks := rfl
  let pay : Nat → Msg D := fun t => [.items (I t)]
  let v : Nat → List Bytes := fun r => ((answer c .protocol pay r).headD .empty).toItems
  refine ⟨[⟨.protocol, pay⟩], ?_⟩
  have := plays_world h2 .protocol hk pay (fun _ (l : Msg D) => (.ret (l.headD .empty).toItems : P D (List Bytes))) [] v
    (Plays.ret c v) (by
      intro r hr
      simp only [answer]
      have h1 := masked_world c .protocol hk pay hr
      have h2 : ((c.ranks.filter (· ≠ c.master)).map fun u => (((sys c).masked .protocol pay u).headD .empty).toItems) =
          ((c.ranks.filter (· ≠ c.master)).map fun u => ((pay u).headD .empty).toItems) := by
        apply List.map_congr_left
        intro u hu
        rw [masked_world c .protocol hk pay (mem_ranks.mp (List.mem_filter.mp hu).1)]
      rw [h1, h2])
  refine this.congr (fun r _ => by simp [onRun, hn, pay]) (fun r _ => ?_)
  by_cases hr : r = c.master
  · subst hr
    simp [v, pay, answer, Part.toItems, directOf]
  · simp [v, answer, hr, Part.toItems]

/-- One bucket through `MemoryPsi::Run`. -/
theorem plays_memory_direct {c : Env D} (h2 : 2 ≤ c.world) (hm : c.master < c.world) (hn : c.nparty = false) (I : Nat → List Bytes) :
    ∃ l, Plays c l (fun r => memoryRun c r (I r))
      (fun r => if (∃ u ∈ c.ranks, I u = []) then [] else if r = c.master ∨ c.broadcast = true then directOf c I else []) := by
  have hz : ∀ r, r < c.world → ((c.ranks.map fun t => (I t).length).foldl min (I r).length = 0 ↔ ∃ u ∈ c.ranks, I u = []) := by
    intro r hr
    rw [foldl_min_eq_zero]
    simp only [List.mem_map, List.length_eq_zero_iff]
    constructor
    · rintro (h | h)
      · exact ⟨r, mem_ranks.mpr hr, h⟩
      · exact h
    · exact Or.inr
  by_cases he : ∃ u ∈ c.ranks, I u = []
  · refine ⟨[gatherEvent c.ranks fun t => (I t).length] ++ [], ?_⟩
    refine Plays.bind (plays_gather h2 fun t => (I t).length) ((Plays.ret c fun _ => []).congr ?_ (fun _ _ => by rw [if_pos he]))
    intro r hr
    rw [if_pos ((hz r hr).mpr he)]
  · obtain ⟨l₁, hp₁⟩ := plays_direct h2 hn I
    have hsync : ∀ (f : Nat → P D (List Bytes)) (l : List (Ev D)) (w : Nat → List Bytes), Plays c l f w →
        Plays c (⟨.sync, fun _ => []⟩ :: l) (fun r => .call .sync [] fun _ => f r) w :=
      fun f l w h => plays_world h2 .sync rfl (fun _ => []) (fun r _ => f r) l w h (fun _ _ => rfl)
    have hstart : ∀ (l : List (Ev D)) (w : Nat → List Bytes), Plays c l (fun r => operatorRun c r (I r)) w →
        Plays c ([gatherEvent c.ranks fun t => (I t).length] ++ l) (fun r => memoryRun c r (I r)) w := by
      intro l w h
      refine Plays.bind (plays_gather h2 fun t => (I t).length) (h.congr ?_ (fun _ _ => rfl))
      intro r hr
      rw [if_neg (fun h => he ((hz r hr).mp h))]
    simp only [if_neg he]
    by_cases hb : c.broadcast = true
    · obtain ⟨l₂, hp₂⟩ := plays_broadcast h2 hm (fun r => if r = c.master then directOf c I else []) (fun r hr => if_neg hr)
      refine ⟨_, (hstart _ _ (Plays.bind hp₁ (hsync (fun r => if c.broadcast then broadcastResult c _ else .ret _)
        l₂ _ (hp₂.congr (fun r _ => by simp [hb]) (fun _ _ => rfl))))).congr (fun _ _ => rfl) (fun r _ => ?_)⟩
      rw [if_pos (Or.inr hb), if_pos rfl]
    · refine ⟨_, (hstart _ _ (Plays.bind hp₁ (hsync (fun r => if c.broadcast then broadcastResult c _ else .ret _)
        [] _ ((Plays.ret c fun r => if r = c.master then directOf c I else []).congr (fun r _ => by simp [hb]) (fun _ _ => rfl))))).congr (fun _ _ => rfl) (fun r _ => ?_)⟩
      simp [hb]

/-! ## Buckets as keys -/

/-- What the parties hand to the protocol for bucket `b` of `n`. -/
def bucketData (c : Env D) (n b : Nat) (keys : List Bytes) : List Bytes :=
  (keys.filter fun k => c.hash (base64 k) % n = b).map data

theorem bucketData_eq (c : Env D) (n b : Nat) (keys : List Bytes) :
    ((bucketItems c.hash n b keys).map fun x => bytes x.data64) = bucketData c n b keys := by
  unfold bucketItems bucketData
  have key : ∀ j, ((itemsFrom j (keys.map fun k => (k, 0))).filter fun x => c.hash x.data64 % n = b).map (fun x => bytes x.data64) =
      (keys.filter fun k => c.hash (base64 k) % n = b).map data := by
    induction keys with
    | nil => intro j; rfl
    | cons k keys ih =>
      intro j
      simp only [List.map_cons, itemsFrom, List.filter_cons]
      by_cases h : c.hash (base64 k) % n = b
      · rw [if_pos (by simpa using h), if_pos (by simpa using h), List.map_cons, List.map_cons, ih]
        rfl
      · rw [if_neg (by simpa using h), if_neg (by simpa using h), ih]
  exact key 0

/-- The buckets together give every position once. -/
theorem out_perm_of (c : Env D) (keys : List Bytes) (n : Nat) (hn : 0 < n) (q : Nat → Bytes → Bool) :
    ((List.range' 0 n).flatMap fun b => ((bucketItems c.hash n b keys).filter fun x => q b (bytes x.data64)).map (·.index)).Perm
      (positions keys fun k => q (c.hash (base64 k) % n) (data k)) := by
  unfold positions
  rw [← List.range_eq_range']
  have h1 : ((List.range n).flatMap fun b => ((bucketItems c.hash n b keys).filter fun x => q b (bytes x.data64)).map (·.index)) =
      ((List.range n).flatMap fun b => ((itemsFrom 0 (keys.map fun k => (k, 0))).filter
        fun x => q (c.hash x.data64 % n) (bytes x.data64)).filter fun x => c.hash x.data64 % n = b).map (·.index) := by
    rw [List.map_flatMap]
    apply List.flatMap_congr
    intro b _
    unfold bucketItems
    rw [List.filter_filter, List.filter_filter]
    congr 1
    apply List.filter_congr
    intro x _
    by_cases h : c.hash x.data64 % n = b
    · simp [h]
    · simp [h]
  rw [h1]
  refine ((Bucket.split_perm n (fun x : Item => c.hash x.data64 % n) _ (fun x _ => Nat.mod_lt _ hn)).map _).trans (List.Perm.of_eq ?_)
  have key : ∀ j, ((itemsFrom j (keys.map fun k => (k, 0))).filter fun x => q (c.hash x.data64 % n) (bytes x.data64)).map (·.index) =
      ((keys.zipIdx j).filter fun x => q (c.hash (base64 x.1) % n) (data x.1)).map Prod.snd := by
    clear h1
    induction keys with
    | nil => intro j; rfl
    | cons k keys ih =>
      intro j
      simp only [List.map_cons, itemsFrom, List.zipIdx_cons, List.filter_cons]
      have : bytes (base64 k) = data k := rfl
      cases h : q (c.hash (base64 k) % n) (data k) <;> simp [this, h, ih]
  exact key 0

/-! ## What the protocol returns -/

/-- The coins are as many as are drawn. -/
structure Fits (A B : List Bytes) (coins : Coins) : Prop where
  shuf : coins.shuf.Perm (List.range B.length)
  sub : coins.sub.length = ((DpPsi.sampled A B (DpPsi.bobSample coins.shuf coins.bob)).map Prod.snd).count true
  up : coins.up.length = ((DpPsi.sampled A B (DpPsi.bobSample coins.shuf coins.bob)).map Prod.snd).count false

/-- The indexes of the items `B` of the receiver that are reported, when the other party has `A`: of the items sampled, a common one
stays and another one joins as its coin says, and nothing is reported if all items sampled are common. -/
def reported (A B : List Bytes) (coins : Coins) : List Nat :=
  if ∀ x ∈ DpPsi.sampled A B (DpPsi.bobSample coins.shuf coins.bob), x.2 = true then []
  else DpPsi.pick (DpPsi.sampled A B (DpPsi.bobSample coins.shuf coins.bob)) coins.sub coins.up

variable {Pt : Type}

theorem reported_lt {A B : List Bytes} {coins : Coins} (hf : Fits A B coins) : ∀ i ∈ reported A B coins, i < B.length := by
  intro i hi
  have hkept : ∀ i ∈ DpPsi.bobSample coins.shuf coins.bob, i < B.length := fun i hi =>
    List.mem_range.1 (hf.shuf.mem_iff.1 ((DpPsi.bernoulli_sublist _ _).subset hi))
  unfold reported at hi
  split at hi
  · simp at hi
  · have h1 := (DpPsi.pick_sublist _ _ _).subset hi
    rw [(DpPsi.sampled_eq (A := A) hkept).1] at h1
    exact hkept i h1

theorem dpOnRun_eq {g : DpPsi.Cfg Bytes Pt} (hc : DpPsi.Laws g) {A B : List Bytes} (hn : DpPsi.NoClash g A B)
    (hB : B.length ≤ 2 ^ 64) {coins : Coins} (hf : Fits A B coins) :
    ∃ R : List Nat, dpOnRun g coins B A = R.map (fun i => B.getD i []) ∧ R.Perm (reported A B coins) ∧ R.Nodup := by
  unfold dpOnRun reported
  by_cases hall : ∀ x ∈ DpPsi.sampled A B (DpPsi.bobSample coins.shuf coins.bob), x.2 = true
  · rw [DpPsi.all_common_reports_nothing hc hn hf.shuf hall, if_pos hall]
    exact ⟨[], rfl, .refl _, List.nodup_nil⟩
  · have hnon : ∃ x ∈ DpPsi.sampled A B (DpPsi.bobSample coins.shuf coins.bob), x.2 = false := by
      simpa using hall
    obtain ⟨R, h1, h2, h3, -⟩ := DpPsi.result_exact hc hn hB hf.shuf hnon hf.sub hf.up
    rw [h1, if_neg hall]
    exact ⟨R, rfl, h2, h3.imp (fun h => Nat.ne_of_lt h)⟩

/-- A report of as many items as there are is a report of all items. -/
theorem all_of_length {B : List Bytes} {R : List Nat} (hn : R.Nodup) (hlt : ∀ i ∈ R, i < B.length) (hl : R.length = B.length) :
    ∀ y ∈ B, y ∈ R.map fun i => B.getD i [] := by
  intro y hy
  obtain ⟨i, hi, rfl⟩ := List.getElem_of_mem hy
  have hsub : R.Subperm (List.range B.length) := hn.subperm fun x hx => List.mem_range.2 (hlt x hx)
  have hp := hsub.perm_of_length_le (by simp [hl])
  exact List.mem_map.2 ⟨i, hp.mem_iff.2 (List.mem_range.2 hi), by simp [hi]⟩

end Psi.Legacy
