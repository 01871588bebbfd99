import Verif.Stored.Props

/-! # C111: examples -/

namespace Psi.Stored

open Psi.Spiral (Res)

/-- A hash is the key and the item. -/
abbrev H := Nat × Bytes

/-- A list with its length in front. -/
def frame (b : Bytes) : Bytes := b.length :: b

/-- Reads a list with its length in front. -/
def unframe : Bytes → Option (Bytes × Bytes)
  | [] => none
  | n :: b => if b.length < n then none else some (b.take n, b.drop n)

theorem unframe_frame (b rest : Bytes) : unframe (frame b ++ rest) = some (b, rest) := by
  simp [frame, unframe]

theorem unframe_short (b : Bytes) (n : Nat) (h : n < (frame b).length) : unframe ((frame b).take n) = none := by
  cases n with
  | zero => rfl
  | succ n =>
    have : n < b.length := by simpa [frame] using h
    simp only [frame, List.take_succ_cons, unframe, List.length_take]
    rw [if_pos (by omega)]

/-- The rows of a data base as numbers. -/
def flat (rows : List (H × Bytes)) : Bytes := rows.flatMap fun r => r.1.1 :: frame r.1.2 ++ frame r.2

/-- Reads rows; the first argument bounds their number. -/
def unflat : Nat → Bytes → List (H × Bytes)
  | 0, _ => []
  | _ + 1, [] => []
  | n + 1, k :: b => match unframe b with
    | none => []
    | some (item, b') => match unframe b' with
      | none => []
      | some (label, b'') => ((k, item), label) :: unflat n b''

theorem unflat_flat (rows : List (H × Bytes)) (n : Nat) (h : rows.length ≤ n) : unflat n (flat rows) = rows := by
  induction rows generalizing n with
  | nil => cases n <;> rfl
  | cons r rows ih =>
    cases n with
    | zero => simp at h
    | succ n =>
      have e : flat (r :: rows) = r.1.1 :: (frame r.1.2 ++ (frame r.2 ++ flat rows)) := by simp [flat]
      rw [e, unflat]
      simp only [unframe_frame]
      rw [ih n (by simpa using h)]

/-- The body of a data base. -/
def body (db : Db H Nat) : Bytes :=
  db.params :: db.labelBytes :: db.nonce :: (if db.compress then 1 else 0) :: db.rows.length :: flat db.rows

/-- A library. -/
def lib : Lib H Nat Nat where
  oprf k x := (k, x)
  saveDb db := frame (body db)
  loadDb b := match unframe b with
    | some (p :: l :: n :: c :: m :: rows, rest) => some (⟨p, l, n, decide (c = 1), unflat m rows⟩, rest)
    | _ => none
  saveKey k := List.replicate 32 k
  readKey b := b.headD 0
  spoil k b := k + b.headD 0
  parseParams b := b.head?
  parseCsv b := match b with
    | [] => none
    | 99 :: t => some ⟨true, t.map fun x => ([x], [x, x])⟩
    | t => some ⟨false, t.map fun x => ([x], [])⟩

theorem lib_laws : Laws lib where
  load db rest := by
    obtain ⟨p, l, n, c, rows⟩ := db
    have e : unframe (frame (body ⟨p, l, n, c, rows⟩) ++ rest) = some (body ⟨p, l, n, c, rows⟩, rest) := unframe_frame _ rest
    have e2 : unflat rows.length (flat rows) = rows := unflat_flat rows rows.length (Nat.le_refl _)
    show (match unframe (frame (body ⟨p, l, n, c, rows⟩) ++ rest) with
      | some (p :: l :: n :: c :: m :: rows, rest) => some ((⟨p, l, n, decide (c = 1), unflat m rows⟩ : Db H Nat), rest)
      | _ => none) = _
    rw [e]
    cases c <;> simp [body, e2]
  short db n h := by
    have e : unframe ((frame (body db)).take n) = none := unframe_short _ n h
    show (match unframe ((frame (body db)).take n) with
      | some (p :: l :: n :: c :: m :: rows, rest) => some ((⟨p, l, n, decide (c = 1), unflat m rows⟩ : Db H Nat), rest)
      | _ => none) = _
    rw [e]
  keyLen k := by simp [lib]
  key k := by simp [lib]

theorem lib_one : OneKey lib := fun _ _ _ h => (Prod.mk.inj h).2
theorem lib_two : TwoKeys lib := fun _ _ _ _ h => (Prod.mk.inj h).1

/-- A table with two labels and parameters. -/
def disk : Disk := fun p => if p = "table" then some [99, 5, 6] else if p = "params" then some [3] else none

/-- A run that makes a data base and saves it. -/
def first : Config := { sourceFile := "table", paramsFile := "params", sdbOutFile := "saved", saveDbOnly := true }

/-- A run that serves it. -/
def second : Config := { dbFile := "saved", paramsFile := "other" }

/-- The data base of the first run. -/
def made : Db H Nat := ⟨3, 2, 16, false, [((7, [5]), [5, 5]), ((7, [6]), [6, 6])]⟩

theorem made_eq (fresh : Nat) : getDb lib fresh 7 (options first) disk = .ok (made, 7) := by
  simp [getDb, options, first, generateDb, buildParams, disk, lib, loadTable, readCsv, createDb, longest, Res.bind, enforce, made]

theorem made_length : (lib.saveDb made ++ lib.saveKey 7).length = 50 := by simp [lib, made, body, frame, flat]

theorem made_db_length : (lib.saveDb made).length = 18 := by simp [lib, made, body, frame, flat]

/-- A disk with room, and one that is full 10 bytes too early; the stream hands on the data base. -/
def roomy : Room := ⟨1000, 18⟩
def full : Room := ⟨40, 18⟩

/-- The disk after the first run. -/
def saved : Disk := disk.set "saved" ((lib.saveDb made ++ lib.saveKey 7).take 1000)

theorem first_run : runSender lib 1 7 roomy first disk = (saved, .ok none) := by
  unfold runSender dealSingle
  rw [made_eq]
  simp [options, first, trySave, roomy, saved]

/-- The table is replaced before the second run. -/
example := C111_second_run lib lib_laws lib_one 1 7 2 8 roomy full first second disk saved (saved.set "table" [99, 1]) none rfl (by decide)
  first_run (fun db k h => by
    rw [made_eq] at h
    simp only [Res.ok.injEq, Prod.mk.injEq] at h
    obtain ⟨rfl, rfl⟩ := h
    rw [made_length]
    decide) rfl rfl rfl rfl
example : answer lib (made, 7) [6] = some [6, 6] ∧ answer lib (made, 7) [8] = none := by decide

example := C111_defined lib 1 7 roomy first disk
example := C111_incomplete_refused_partial lib lib_laws 1 7 roomy second (disk.set "saved" ((lib.saveDb made ++ lib.saveKey 7).take 11))
  (by decide) made 7 11 (by rw [made_db_length]; decide) rfl

theorem made_created : createDb lib 7 ⟨true, [([5], [5, 5]), ([6], [6, 6])]⟩ 3 16 false = .ok (made, 7) := by
  simp [createDb, longest, Res.bind, lib, made]

/-- The fresh key 8 differs from the key 7 of the data base, spoilt or not. -/
theorem spoilt (b : Bytes) : lib.spoil 8 b ≠ 7 := by
  show 8 + b.headD 0 ≠ 7
  omega

example := C111_key_missing_served lib lib_laws lib_two 8 9 roomy second (disk.set "saved" ((lib.saveDb made ++ lib.saveKey 7).take 40))
  (by decide) rfl rfl 7 7 _ 3 16 false made made_created 40 (by rw [made_db_length]; decide) (by rw [made_length]; decide) rfl spoilt
example := C111_full_disk lib lib_laws lib_two 1 7 8 9 full roomy first second disk rfl (by decide) rfl made 7 (made_eq 1) (by decide)
  (by rw [made_db_length]; decide) (by rw [made_length]; decide) rfl rfl rfl spoilt
example := C111_save_complete_partial lib 1 7 ⟨1000, 50⟩ first disk saved none (by decide) made 7 (made_eq 1) (by rw [made_length])
  (by unfold runSender dealSingle; rw [made_eq]; simp [options, first, trySave, saved])
example := C111_save_only_nowhere lib 1 7 roomy { first with sdbOutFile := "" } disk rfl rfl (made, 7) (made_eq 1)
example := C111_table_as_db_file lib 1 7 roomy { dbFile := "table" } disk (by decide) [99, 5, 6] rfl (by decide)
example := C111_settings { nonceByteCount := 12 }

/-- Rows and counts of the first offline phase, rows of the second. -/
def values : Table := ⟨true, [([5], [50, 51])]⟩
def counts : Table := ⟨true, [([5], [2])]⟩
def values2 : Table := ⟨true, [([5], [50]), ([6], [60])]⟩
def dk : DkOptions := { paramsFile := "params", valueFile := "value", countFile := "count", skip := false }

theorem dk_len (draw : Nat) (t : Table) (ht : t = values ∨ t = counts ∨ t = values2) (ps : Nat) (db : Db H Nat) (k : Nat)
    (h : createDb lib draw t ps dk.nonce dk.compress = .ok (db, k)) : (lib.saveDb db ++ lib.saveKey k).length ≤ 1000 := by
  rcases ht with rfl | rfl | rfl <;>
  · simp only [createDb, values, counts, values2, longest, Res.bind, if_true, Res.ok.injEq, Prod.mk.injEq] at h
    obtain ⟨rfl, rfl⟩ := h
    simp [lib, body, frame, flat]

/-- The disk after the offline phase. -/
def dkDisk : Disk := (dkGenerate lib 7 roomy roomy dk values (some counts) disk).1

theorem dk_run : dkGenerate lib 7 roomy roomy dk values (some counts) disk = (dkDisk, .ok ()) := by
  have : (dkGenerate lib 7 roomy roomy dk values (some counts) disk).2 = .ok () := by
    simp [dkGenerate, buildParams, disk, dk, lib, createDb, values, counts, longest, Res.bind, trySave, roomy]
  rw [← this]
  rfl

example := C111_dk_round_trip lib lib_laws lib_one 7 8 roomy roomy dk values counts disk dkDisk dkDisk (by decide) dk_run
  (fun t ht ps db k h => by
    simp only [List.mem_cons, List.not_mem_nil, or_false] at ht
    simpa [roomy] using dk_len 7 t (by rcases ht with h | h <;> simp [h]) ps db k h) rfl rfl
example := C111_dk_mixed lib lib_laws lib_one lib_two 7 8 1 (by decide) roomy roomy roomy roomy dk rfl (by decide) values counts values2 disk
  dkDisk 3 dk_run (fun ps db k h => dk_len 7 counts (by simp) ps db k h) (fun ps db k h => dk_len 8 values2 (by simp) ps db k h)
  (by simp [dkDisk, dkGenerate, buildParams, disk, dk, lib, createDb, values, counts, longest, Res.bind, trySave, roomy, Disk.set])
  (by decide) (by decide)

end Psi.Stored
