import Verif.Scratch.Model
import Mathlib.Data.List.Perm.Basic
import Mathlib.Data.Set.Card
import Mathlib.Data.Fintype.Card
import Mathlib.Data.Fintype.BigOperators

/-!
# Scratch places: helper lemmas
-/

namespace Psi.Scratch

/-- What is below something is below a directory. -/
def Tree (d : Disk) : Prop := ∀ p c, d (p ++ [c]) ≠ none → d p = some .dir

/-- The action leaves all but the path and what is below it as it is. -/
def Inside (p : Path) (f : Disk → Disk) : Prop := ∀ d q, ¬ p <+: q → f d q = d q

theorem tree_append {d : Disk} (h : Tree d) {p : Path} (hp : d p = none) (r : Path) : d (p ++ r) = none := by
  induction r using List.reverseRecOn with
  | nil => simpa using hp
  | append_singleton r c ih =>
    by_contra hc
    rw [← List.append_assoc] at hc
    rw [h _ _ hc] at ih
    cases ih

theorem tree_below {d : Disk} (h : Tree d) {p q : Path} (hp : d p = none) (hq : p <+: q) : d q = none := by
  obtain ⟨r, rfl⟩ := hq
  exact tree_append h hp r

theorem tree_removeAll {d : Disk} (h : Tree d) (p : Path) : Tree (removeAll p d) := by
  intro q c hq
  unfold removeAll at hq ⊢
  by_cases h1 : p <+: q ++ [c]
  · rw [if_pos h1] at hq; exact absurd rfl hq
  · rw [if_neg h1] at hq
    rw [if_neg fun h2 => h1 (h2.trans (List.prefix_append q [c]))]
    exact h _ _ hq

/-! ### Names -/

theorem pathChar_inj : ∀ i < 64, ∀ j < 64, pathChar i = pathChar j → i = j := by decide +kernel

theorem byte_eq {a b : UInt8} (h : a.toNat / 64 = b.toNat / 64) (h' : a.toNat % 64 = b.toNat % 64) : a = b := by
  apply UInt8.toNat_inj.1
  omega

theorem byte_div (b : UInt8) : b.toNat / 64 < 4 := by have := b.toNat_lt; omega

theorem byte_mod (b : UInt8) : b.toNat % 64 < 64 := Nat.mod_lt _ (by decide)

theorem nameFrom_even_inj : ∀ (k : Nat) (a b : List UInt8), a.length = k → b.length = k →
    nameFrom (2 * k) a = nameFrom (2 * k) b → a = b := by
  intro k
  induction k with
  | zero =>
    intro a b ha hb _
    rw [List.length_eq_zero_iff.1 ha, List.length_eq_zero_iff.1 hb]
  | succ k ih =>
    intro a b ha hb h
    obtain ⟨x, a, rfl⟩ : ∃ x l, a = x :: l := by cases a <;> simp_all
    obtain ⟨y, b, rfl⟩ : ∃ x l, b = x :: l := by cases b <;> simp_all
    simp only [List.length_cons, Nat.add_right_cancel_iff] at ha hb
    rw [show 2 * (k + 1) = 2 * k + 2 by omega, nameFrom, nameFrom] at h
    have hsome : ∀ l : List UInt8, l.length = k → (nameFrom (2 * k) l).isSome := by
      clear * -
      induction k with
      | zero => intro l _; cases l <;> simp [nameFrom]
      | succ k ih =>
        intro l hl
        cases l with
        | nil => simp at hl
        | cons x l =>
          rw [show 2 * (k + 1) = 2 * k + 2 by omega, nameFrom, Option.isSome_map]
          exact ih l (by simpa using hl)
    obtain ⟨r, hr⟩ := Option.isSome_iff_exists.1 (hsome a ha)
    obtain ⟨s, hs⟩ := Option.isSome_iff_exists.1 (hsome b hb)
    rw [hr, hs] at h
    simp only [Option.map_some, Option.some.injEq, List.cons.injEq] at h
    obtain ⟨h1, h2, h3⟩ := h
    have e1 := pathChar_inj _ (by have := byte_div x; omega) _ (by have := byte_div y; omega) h1
    have e2 := pathChar_inj _ (byte_mod x) _ (byte_mod y) h2
    rw [byte_eq e1 e2, ih a b ha hb (by rw [hr, hs, h3])]

theorem nameFrom_spec : ∀ (n : Nat) (bs : List UInt8), bs.length = drawn n → ∃ r, nameFrom n bs = some r ∧
    r.length = n ∧ ∀ i < n, ∃ b, bs[i / 2]? = some b ∧
      r[i]? = pathChars[if i % 2 = 0 then b.toNat / 64 else b.toNat % 64]? := by
  have hget : ∀ j < 64, some (pathChar j) = pathChars[j]? := by decide +kernel
  intro n
  induction n using Nat.strong_induction_on with
  | _ n ih =>
    intro bs hbs
    match n, bs with
    | 0, bs => exact ⟨[], rfl, rfl, by simp⟩
    | 1, [] => simp [drawn] at hbs
    | 1, b :: bs =>
      refine ⟨[pathChar (b.toNat / 64)], rfl, rfl, ?_⟩
      intro i hi
      obtain rfl : i = 0 := by omega
      exact ⟨b, rfl, hget _ (by have := byte_div b; omega)⟩
    | n + 2, [] => simp [drawn] at hbs; omega
    | n + 2, b :: bs =>
      obtain ⟨r, h1, h2, h3⟩ := ih n (by omega) bs (by simp [drawn] at hbs ⊢; omega)
      refine ⟨pathChar (b.toNat / 64) :: pathChar (b.toNat % 64) :: r, by rw [nameFrom, h1]; rfl, by simp [h2], ?_⟩
      intro i hi
      match i with
      | 0 => exact ⟨b, rfl, hget _ (by have := byte_div b; omega)⟩
      | 1 => exact ⟨b, rfl, hget _ (byte_mod b)⟩
      | i + 2 =>
        obtain ⟨c, hc, hc'⟩ := h3 i (by omega)
        refine ⟨c, ?_, ?_⟩
        · rw [show (i + 2) / 2 = i / 2 + 1 by omega]; simpa using hc
        · rw [show (i + 2) % 2 = i % 2 by omega]; simpa using hc'

theorem nameFrom_chars : ∀ (n : Nat) (bs : List UInt8) (r : Name), nameFrom n bs = some r → ∀ c ∈ r, c ∈ pathChars := by
  have hget : ∀ j < 64, pathChar j ∈ pathChars := by decide +kernel
  intro n
  induction n using Nat.strong_induction_on with
  | _ n ih =>
    intro bs r h
    match n, bs with
    | 0, bs => simp only [nameFrom, Option.some.injEq] at h; subst h; simp
    | 1, [] => simp [nameFrom] at h
    | 1, b :: bs =>
      simp only [nameFrom, Option.some.injEq] at h
      subst h
      intro c hc
      rw [List.mem_singleton.1 hc]
      exact hget _ (by have := byte_div b; omega)
    | n + 2, [] => simp [nameFrom] at h
    | n + 2, b :: bs =>
      rw [nameFrom, Option.map_eq_some_iff] at h
      obtain ⟨s, hs, rfl⟩ := h
      intro c hc
      rcases List.mem_cons.1 hc with rfl | hc
      · exact hget _ (by have := byte_div b; omega)
      · rcases List.mem_cons.1 hc with rfl | hc
        · exact hget _ (byte_mod b)
        · exact ih n (by omega) bs s hs c hc

theorem randomName_some {bs : List UInt8} (h : bs.length = 8) : nameFrom 16 bs = some (randomName bs) := by
  obtain ⟨r, hr, -⟩ := nameFrom_spec 16 bs (by rw [h]; rfl)
  rw [randomName, hr]
  rfl

/-! ### The directory of a disk cache -/

/-- With a free name among those that are left, the first free name is used. -/
theorem tryDirs_free (path : Path) (draw : Nat → Name) (d : Disk) : ∀ (left i : Nat) (dir : Path),
    (∃ j, i ≤ j ∧ j < i + left ∧ d (path ++ [draw j]) = none) →
    ∃ j, d (path ++ [draw j]) = none ∧ tryDirs path draw (fun _ d => d) left i dir d =
      if d path = some .dir then
        ⟨path ++ [draw j], fun q => if q = path ++ [draw j] then some .dir else d q, some true⟩
      else ⟨path ++ [draw j], d, none⟩ := by
  intro left
  induction left with
  | zero => rintro i dir ⟨j, h1, h2, -⟩; omega
  | succ left ih =>
    rintro i dir ⟨j, h1, h2, h3⟩
    by_cases hi : d (path ++ [draw i]) = none
    · refine ⟨i, hi, ?_⟩
      rw [tryDirs]
      simp only [present, hi, Option.isSome_none, Bool.false_eq_true, if_false, createDir, List.dropLast_concat]
      by_cases hp : d path = some .dir
      · simp [hp]
      · simp [hp]
    · have hj : i ≠ j := fun e => hi (e ▸ h3)
      obtain ⟨k, hk, hk'⟩ := ih (i + 1) (path ++ [draw i]) ⟨j, by omega, by omega, h3⟩
      refine ⟨k, hk, ?_⟩
      rw [tryDirs]
      have : present d (path ++ [draw i]) = true := by simp [present, Option.isSome_iff_ne_none, hi]
      simp only [this, if_true]
      exact hk'

theorem tryDirs_taken (path : Path) (draw : Nat → Name) (race : Nat → Disk → Disk) (d : Disk) :
    ∀ (left i : Nat) (dir : Path), (∀ j, i ≤ j → j < i + left → d (path ++ [draw j]) ≠ none) →
    tryDirs path draw race left i dir d =
      ⟨if left = 0 then dir else path ++ [draw (i + left - 1)], d, some false⟩ := by
  intro left
  induction left with
  | zero => intro i dir _; rfl
  | succ left ih =>
    intro i dir h
    rw [tryDirs]
    have : present d (path ++ [draw i]) = true := by
      simpa [present, Option.isSome_iff_ne_none] using h i (le_refl _) (by omega)
    simp only [this, if_true]
    rw [ih (i + 1) _ fun j h1 h2 => h j (by omega) (by omega)]
    rcases Nat.eq_zero_or_pos left with rfl | hl
    · simp
    · rw [if_neg (by omega), if_neg (by omega), show i + 1 + left - 1 = i + (left + 1) - 1 by omega]

/-- A disk cache for whose directory a name is free: nothing at or below the directory is left, nothing else is
changed. -/
theorem cacheLife_free {path : Path} {draw : Nat → Name} {use : Path → Disk → Disk} {d : Disk}
    (hu : ∀ p, Inside p (use p)) (hf : ∃ i < maxTries, d (path ++ [draw i]) = none) :
    ∃ j, d (path ++ [draw j]) = none ∧ ∀ q, cacheLife path true draw (fun _ d => d) use d q =
      if path ++ [draw j] <+: q then none else d q := by
  obtain ⟨i, hi, hd⟩ := hf
  obtain ⟨j, hj, ht⟩ := tryDirs_free path draw d maxTries 0 [] ⟨i, by omega, by omega, hd⟩
  refine ⟨j, hj, fun q => ?_⟩
  unfold cacheLife openCache
  by_cases hp : d path = some .dir
  · rw [if_pos hp] at ht
    simp only [ht, if_true, closeCache, dropScoped]
    rw [if_neg (by simp)]
    unfold removeAll
    by_cases hq : path ++ [draw j] <+: q
    · rw [if_pos hq, if_pos hq]
    · rw [if_neg hq, if_neg hq, hu _ _ _ hq, if_neg]
      rintro rfl
      exact hq (List.prefix_refl _)
  · rw [if_neg hp] at ht
    simp only [ht, if_true, dropScoped]
    rw [if_neg (by simp), if_neg (by simp)]
    rfl

/-! ### The resource manager -/

/-- The directories of a list of resources. -/
def Covers (es : List (Key × Res)) (q : Path) : Prop := ∃ e ∈ es, ∃ p, e.2 = Res.dir p ∧ p <+: q

theorem release_disk {m : Mgr} (h : Tree m.disk) (r : Res) (q : Path) :
    ((∃ p, r = .dir p ∧ p <+: q) → (release r m).disk q = none) ∧
    (¬ (∃ p, r = .dir p ∧ p <+: q) → (release r m).disk q = m.disk q) ∧ Tree (release r m).disk := by
  cases r with
  | link i => refine ⟨?_, fun _ => rfl, h⟩; rintro ⟨p, hp, -⟩; cases hp
  | dir p =>
    unfold release
    by_cases hp : present m.disk p
    · simp only [hp, if_true]
      refine ⟨?_, ?_, tree_removeAll h p⟩
      · rintro ⟨p', he, hq⟩; cases he; simp [removeAll, hq]
      · intro hn
        rw [removeAll, if_neg fun hq => hn ⟨p, rfl, hq⟩]
    · simp only [hp]
      refine ⟨?_, fun _ => rfl, h⟩
      rintro ⟨p', he, hq⟩
      cases he
      exact tree_below h (by simpa [present] using hp) hq

theorem releaseAll_disk : ∀ (es : List (Key × Res)) (m : Mgr), Tree m.disk → ∀ q,
    (Covers es q → (es.foldl (fun m e => release e.2 m) m).disk q = none) ∧
    (¬ Covers es q → (es.foldl (fun m e => release e.2 m) m).disk q = m.disk q) := by
  intro es
  induction es with
  | nil => intro m _ q; exact ⟨fun ⟨e, he, _⟩ => by simp at he, fun _ => rfl⟩
  | cons e es ih =>
    intro m hm q
    obtain ⟨h1, h2, h3⟩ := release_disk hm e.2 q
    obtain ⟨i1, i2⟩ := ih (release e.2 m) h3 q
    rw [List.foldl_cons]
    by_cases hc : Covers es q
    · exact ⟨fun _ => i1 hc, fun hn => absurd (by
        obtain ⟨e', he', p, hp⟩ := hc
        exact ⟨e', List.mem_cons_of_mem _ he', p, hp⟩) hn⟩
    · rw [i2 hc]
      refine ⟨?_, ?_⟩
      · rintro ⟨e', he', p, hp⟩
        rcases List.mem_cons.1 he' with rfl | he'
        · exact h1 ⟨p, hp⟩
        · exact absurd ⟨e', he', p, hp⟩ hc
      · intro hn
        exact h2 fun ⟨p, hp⟩ => hn ⟨e, List.mem_cons_self, p, hp⟩

theorem covers_perm {a b : List (Key × Res)} (h : a.Perm b) (q : Path) : Covers a q ↔ Covers b q := by
  unfold Covers
  simp only [h.mem_iff]

theorem waited_fold : ∀ (es : List (Key × Res)) (m : Mgr),
    (es.foldl (fun m e => release e.2 m) m).waited =
      m.waited ++ es.filterMap fun e => match e.2 with | .link i => some i | .dir _ => none := by
  intro es
  induction es with
  | nil => intro m; simp
  | cons e es ih =>
    intro m
    rw [List.foldl_cons, ih]
    rcases e with ⟨k, r⟩
    cases r with
    | dir p => simp only [release, List.filterMap_cons]; split <;> rfl
    | link i => simp [release]

end Psi.Scratch
