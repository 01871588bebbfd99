import Verif.Apsi.Props
import Verif.Capi.Model

/-!
# Results in a file
-/

namespace Psi.Capi

open Psi.Spiral (Res)
open Psi.DkPir (Str)
open Psi.Apsi

/-! ### The sum -/

theorem toInt32_mod (n : Int) : toInt32 n % 2 ^ 32 = n % 2 ^ 32 := by
  rw [toInt32]
  omega

theorem accumulate_aux : ∀ (ns : List Nat) (acc : Int),
    ns.foldl addCount acc % 2 ^ 32 = (acc + (ns.sum : Nat)) % 2 ^ 32
  | [], acc => by simp
  | n :: ns, acc => by
    rw [List.foldl_cons, accumulate_aux ns, List.sum_cons, addCount]
    have h := toInt32_mod ((acc % 2 ^ 64 + n) % 2 ^ 64)
    generalize toInt32 ((acc % 2 ^ 64 + n) % 2 ^ 64) = x at h ⊢
    push_cast
    omega

theorem accumulate_eq (ns : List Nat) : accumulate ns = ns.sum % 2 ^ 32 := by
  rw [accumulate, accumulate_aux]
  omega

section
variable {B : Type} {w : World B}

variable {c : Config} {t : Table}

theorem toFile_append (ht : Apsi.Fine w c.buckets t) : ∀ {xs : List (Nat × List Str)} (file : Str),
    (∀ x ∈ xs, ∀ i ∈ x.2, home w c.buckets i = x.1) → (∀ x ∈ xs, bucketRows w c.buckets t x.1 ≠ []) →
    ∃ ns : List Nat, toFile (some file) true ((xs.map Prod.snd).zip (xs.map (answer w c t)))
      = (some (file ++ (foundAll t xs).flatMap (resultLine w c.buckets t)), .ok ns) ∧ ns.sum = (foundAll t xs).length
  | [], file, _, _ => ⟨[], by simp [toFile, foundAll]⟩
  | x :: xs, file, h, hb => by
    have hx := h x List.mem_cons_self
    obtain ⟨ns, e1, e2⟩ := toFile_append ht (file ++ (foundIn t x.2).flatMap (resultLine w c.buckets t))
      (fun y hy => h y (List.mem_cons_of_mem _ hy)) (fun y hy => hb y (List.mem_cons_of_mem _ hy))
    refine ⟨(foundIn t x.2).length :: ns, ?_, ?_⟩
    · rw [List.map_cons, List.map_cons, List.zip_cons_cons, answer, if_neg (hb x List.mem_cons_self), toFile, printResults]
      dsimp only [Option.getD_some]
      rw [if_pos rfl, show recs w c.buckets t x = recs w c.buckets t (x.1, x.2) from rfl, printLines_recs ht hx,
        count_recs ht hx, e1]
      simp [foundAll, Res.bind]
    · rw [List.sum_cons, e2]
      simp [foundAll]

/-- The keys found in the first bucket. -/
theorem foundAll_first : ∀ {xs : List (Nat × List Str)} {x : Nat × List Str},
    (∀ y ∈ x :: xs, ∀ i ∈ y.2, home w c.buckets i = y.1) → ((x :: xs).map Prod.fst).Nodup →
    (foundAll t (x :: xs)).filter (fun k => home w c.buckets k = x.1) = foundIn t x.2 := by
  intro xs x h hn
  rw [List.map_cons, List.nodup_cons] at hn
  rw [foundAll, List.flatMap_cons, List.filter_append]
  have h1 : (foundIn t x.2).filter (fun k => home w c.buckets k = x.1) = foundIn t x.2 := by
    rw [List.filter_eq_self]
    intro k hk
    rw [decide_eq_true_iff]
    exact h x List.mem_cons_self k (mem_foundIn.mp hk).1
  have h2 : (xs.flatMap fun c => foundIn t c.2).filter (fun k => home w c.buckets k = x.1) = [] := by
    rw [List.filter_eq_nil_iff]
    intro k hk
    obtain ⟨y, hy, hky⟩ := List.mem_flatMap.mp hk
    rw [decide_eq_true_iff, h y (List.mem_cons_of_mem _ hy) k (mem_foundIn.mp hky).1]
    intro he
    exact hn.1 (he ▸ List.mem_map.mpr ⟨y, hy, rfl⟩)
  rw [h1, h2, List.append_nil]

theorem columns_eq (l : List Str) : columns l.length = "key".toList ++ l.flatMap fun _ => ",value".toList := by
  have hrep : ∀ m, (List.replicate (m + 1) ",value".toList).flatten
      = (List.replicate m ",value".toList).flatten ++ ",value".toList := by
    intro m
    rw [List.replicate_succ', List.flatten_append]
    rfl
  have hnum : ∀ m, columns m = "key".toList ++ (List.replicate m ",value".toList).flatten := by
    intro m
    induction m with
    | zero => rfl
    | succ m ih => rw [columns, ih, hrep, List.append_assoc]
  rw [hnum, List.flatMap_def, List.map_const']

theorem toFile_new (ht : Apsi.Fine w c.buckets t) {xs : List (Nat × List Str)} {x : Nat × List Str} (file : Option Str)
    (h : ∀ y ∈ x :: xs, ∀ i ∈ y.2, home w c.buckets i = y.1) (hb : ∀ y ∈ x :: xs, bucketRows w c.buckets t y.1 ≠ [])
    (hn : ((x :: xs).map Prod.fst).Nodup) :
    ∃ ns : List Nat, toFile file false (((x :: xs).map Prod.snd).zip ((x :: xs).map (answer w c t)))
      = (some ("key".toList ++ (if t.labeled then
          ((foundAll t (x :: xs)).filter fun k => home w c.buckets k = x.1).flatMap fun _ => ",value".toList else [])
        ++ ['\n'] ++ (foundAll t (x :: xs)).flatMap (resultLine w c.buckets t)), .ok ns) ∧
      ns.sum = (foundAll t (x :: xs)).length := by
  have hx := h x List.mem_cons_self
  rw [foundAll_first h hn]
  obtain ⟨ns, e1, e2⟩ := toFile_append ht (columns (if t.labeled then (foundIn t x.2).length else 0) ++ ['\n']
      ++ (foundIn t x.2).flatMap (resultLine w c.buckets t))
    (fun y hy => h y (List.mem_cons_of_mem _ hy)) (fun y hy => hb y (List.mem_cons_of_mem _ hy))
  refine ⟨(foundIn t x.2).length :: ns, ?_, ?_⟩
  · rw [List.map_cons, List.map_cons, List.zip_cons_cons, answer, if_neg (hb x List.mem_cons_self), toFile, printResults]
    dsimp only
    rw [if_neg Bool.false_ne_true, show recs w c.buckets t x = recs w c.buckets t (x.1, x.2) from rfl,
      printLines_recs ht hx, printHeader_recs ht hx, count_recs ht hx, e1]
    have : columns (if t.labeled then (foundIn t x.2).length else 0) = "key".toList ++ (if t.labeled then
        (foundIn t x.2).flatMap fun _ => ",value".toList else []) := by
      by_cases hl : t.labeled = true
      · rw [if_pos hl, if_pos hl, columns_eq]
      · rw [if_neg hl, if_neg hl]
        rfl
    rw [this]
    simp [foundAll, Res.bind]
  · rw [List.sum_cons, e2]
    simp [foundAll]

theorem toFile_throws : ∀ {xs : List (Nat × List Str)} (file : Option Str) (app : Bool),
    (∃ x ∈ xs, bucketRows w c.buckets t x.1 = []) →
    ∃ f, toFile file app ((xs.map Prod.snd).zip (xs.map (answer w c t))) = (f, .throws)
  | [], _, _, h => by obtain ⟨x, hx, -⟩ := h; cases hx
  | x :: xs, file, app, h => by
    rw [List.map_cons, List.map_cons, List.zip_cons_cons, answer]
    by_cases hx : bucketRows w c.buckets t x.1 = []
    · rw [if_pos hx]
      exact ⟨file, by rw [toFile]⟩
    · rw [if_neg hx, toFile]
      obtain ⟨f, e⟩ := toFile_throws (some (printResults x.2 (recs w c.buckets t x) (file.getD []) app).1) true (by
        obtain ⟨y, hy, he⟩ := h
        rcases List.mem_cons.mp hy with rfl | hy
        · exact absurd he hx
        · exact ⟨y, hy, he⟩)
      refine ⟨f, ?_⟩
      rw [e]
      rfl

theorem fileQuery_eq (hw : Sound w) (hc : c.Fine) (ht : Apsi.Fine w c.buckets t) (draw : Nat → Nat) (newKey : Nat)
    {s : Server B} {K : Made} (hs : Inv w c t s K) (queries : List Str) (file : Option Str) :
    ∃ s' K', fileQuery w draw newKey s queries file
        = (s', processToFile file (((ctxsOf w c.buckets queries).map Prod.snd).zip
            ((ctxsOf w c.buckets queries).map (answer w c t)))) ∧
      Inv w c t s' K' ∧ K.le K' := by
  have hlt : ∀ x ∈ ctxsOf w c.buckets queries, x.1 < c.buckets := fun x hx => ctxs_lt hw hc.buckets hx
  obtain ⟨s1, K1, ks, e1, e2, e3, e4⟩ := oprfAll_ok hw hc ht draw newKey _ s K hs hlt
  obtain ⟨s2, K2, f1, f2, f3⟩ := queryAll_ok hw hc ht draw _ ks s1 K1 e2 hlt e4
  refine ⟨s2, K2, ?_, f2, Made.le_trans e3 f3⟩
  rw [fileQuery, hs.config.1, bucketizeItems_ok hc.buckets hc.small]
  dsimp only
  rw [e1]
  dsimp only
  rw [f1]

end

end Psi.Capi
