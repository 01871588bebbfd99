import Verif.Ecdh3.PlanLemmas
import Mathlib.Data.List.Nodup

/-! # The result of three-party ECDH-PSI -/

namespace Psi.Ecdh3
open Psi.Net
open Psi.Ecdh (Bytes)

variable {α P : Type}

/-- The value compared by the master. -/
def triple (c : Cfg α P) (x : α) : Bytes :=
  tail c.dualSize (c.ser (c.mask .partner (c.mask .calculator (c.mask .master (c.hash x)))))

/-- Masks commute, and different items of the three parties have different comparison values. -/
structure Crypto (c : Cfg α P) : Prop where
  comm : ∀ r r' p, c.mask r (c.mask r' p) = c.mask r' (c.mask r p)
  inj : ∀ r r', ∀ x ∈ c.items r, ∀ y ∈ c.items r', triple c x = triple c y → x = y

/-- The doubly masked value the calculator compares. -/
def double (c : Cfg α P) (x : α) : Bytes := c.ser (c.mask .calculator (c.mask .partner (c.hash x)))

theorem zcabL_eq (c : Cfg α P) (hc : c.Lawful) : zcabL c = (c.items .master).map (triple c) := by
  simp [zcabL, zcaL, zcL, List.map_map, Function.comp_def, hc.round, triple]

theorem tail_full {n : Nat} {b : Bytes} (h : b.length = n) : tail n b = b := by simp [tail, h]

theorem xabL_eq (c : Cfg α P) (hc : c.Lawful) (hx : Crypto c) :
    xabL c = Std.sort ((c.items .calculator).map (double c)) := by
  unfold xabL shuffleAnswer xaL
  congr 1
  simp only [List.map_map]
  refine List.map_congr_left (fun x _ => ?_)
  simp only [Function.comp_apply, hc.round, double]
  rw [tail_full (hc.serLen _), hx.comm]

theorem peerL_eq (c : Cfg α P) (hc : c.Lawful) : peerL c = c.shuffled.map (double c) := by
  unfold peerL ybL
  simp only [List.map_map]
  refine List.map_congr_left (fun x _ => ?_)
  simp only [Function.comp_apply, hc.round, double]
  rw [tail_full (hc.serLen _)]

theorem double_triple (c : Cfg α P) (hc : c.Lawful) (hx : Crypto c) (x : α) :
    tail c.dualSize (c.ser (c.mask .master (c.deser (double c x)))) = triple c x := by
  unfold double triple
  rw [hc.round, hx.comm .master .calculator, hx.comm .master .partner, hx.comm .calculator .partner]

theorem double_inj (c : Cfg α P) (hc : c.Lawful) (hx : Crypto c) {r r' : Role} {x y : α} (h1 : x ∈ c.items r)
    (h2 : y ∈ c.items r') (h : double c x = double c y) : x = y := by
  refine hx.inj r r' x h1 y h2 ?_
  rw [← double_triple c hc hx, ← double_triple c hc hx, h]

theorem mem_interL (c : Cfg α P) (hc : c.Lawful) (hx : Crypto c) (hs : c.shuffled.Perm (c.items .partner)) (b : Bytes) :
    b ∈ interL c ↔ ∃ x, x ∈ c.items .calculator ∧ x ∈ c.items .partner ∧ b = double c x := by
  unfold interL partnersInter
  rw [Std.mem_setIntersection (Std.sort_sorted _) (Std.sort_sorted _), Std.mem_sort, Std.mem_sort, xabL_eq c hc hx,
    Std.mem_sort, peerL_eq c hc]
  simp only [List.mem_map]
  constructor
  · rintro ⟨⟨x, hx1, rfl⟩, ⟨y, hy1, he⟩⟩
    have hy2 := hs.mem_iff.mp hy1
    have := double_inj c hc hx hy2 hx1 he
    subst this
    exact ⟨y, hx1, hy2, rfl⟩
  · rintro ⟨x, h1, h2, rfl⟩
    exact ⟨⟨x, h1, rfl⟩, ⟨x, hs.mem_iff.mpr h2, rfl⟩⟩

theorem filter_zipIdx (l : List α) (f : α → Bytes) (p : Bytes → Bool) :
    (((l.map f).zipIdx.filter (fun x => p x.1)).mapM (fun x => l[x.2]?)) = some (l.filter (fun x => p (f x))) := by
  have key : ∀ (pre suf : List α), l = pre ++ suf →
      ((((suf.map f).zipIdx pre.length).filter (fun x => p x.1)).mapM (fun x => l[x.2]?)) =
        some (suf.filter (fun x => p (f x))) := by
    intro pre suf
    induction suf generalizing pre with
    | nil => intro _; rfl
    | cons x xs ih =>
      intro hl
      have ih' := ih (pre ++ [x]) (by simp [hl])
      simp only [List.length_append, List.length_cons, List.length_nil, Nat.zero_add] at ih'
      have hg : l[pre.length]? = some x := by rw [hl]; simp
      simp only [List.map_cons, List.zipIdx_cons, List.filter_cons]
      cases hp : p (f x) with
      | false => simpa [hp] using ih'
      | true => simp [List.mapM_cons, hg, ih']
  have := key [] l rfl
  simpa using this

theorem finalPsi_eq [DecidableEq α] (c : Cfg α P) (hc : c.Lawful) (hx : Crypto c)
    (hs : c.shuffled.Perm (c.items .partner)) :
    finalPsi c (c.items .master) (zcabL c) (interL c) =
      some ((c.items .master).filter (fun x => x ∈ c.items .calculator ∧ x ∈ c.items .partner)) := by
  unfold finalPsi
  rw [zcabL_eq c hc]
  simp only []
  rw [filter_zipIdx]
  congr 1
  refine List.filter_congr (fun x hxm => ?_)
  rw [Bool.eq_iff_iff, Std.binarySearch_iff (Std.sort_sorted _), Std.mem_sort, List.mem_map, decide_eq_true_iff]
  constructor
  · rintro ⟨b, hb, he⟩
    obtain ⟨y, h1, h2, rfl⟩ := (mem_interL c hc hx hs b).mp hb
    rw [double_triple c hc hx] at he
    have := hx.inj _ _ y h1 x hxm he
    subst this
    exact ⟨h1, h2⟩
  · rintro ⟨h1, h2⟩
    exact ⟨double c x, (mem_interL c hc hx hs _).mpr ⟨x, h1, h2, rfl⟩, double_triple c hc hx x⟩

theorem setIntersection_sublist (l m : List Bytes) : (Std.setIntersection l m).Sublist l := by
  fun_induction Std.setIntersection l m with
  | case1 => simp
  | case2 => simp
  | case3 a l b m hab ih => exact ih.cons _
  | case4 a l b m hab hba ih => exact ih
  | case5 a l b m hab hba ih => exact ih.cons_cons _

/-- The intersection sent to the master is in ascending order, without repetition. -/
theorem interL_sorted (c : Cfg α P) : Std.Sorted (interL c) :=
  (Std.sort_sorted _).sublist (setIntersection_sublist _ _)

theorem interL_nodup (c : Cfg α P) (hc : c.Lawful) (hx : Crypto c) (hn : (c.items .calculator).Nodup) :
    (interL c).Nodup := by
  refine List.Nodup.sublist (setIntersection_sublist _ _) ?_
  rw [(Std.sort_perm _).nodup_iff, xabL_eq c hc hx, (Std.sort_perm _).nodup_iff]
  exact List.Nodup.map_on (fun x h1 y h2 h => double_inj c hc hx h1 h2 h) hn

end Psi.Ecdh3
