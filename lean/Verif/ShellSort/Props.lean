import Verif.ShellSort.SortLemmas
import Verif.Join.RleLemmas
import Mathlib.Order.Interval.Finset.Nat

/-!
# C117: sorting a table through the shell
-/

namespace Psi.ShellSort

open Psi.Text (dec digit? digitsVal split lines)
open Psi.Join (keyInfoMake KeyRec)

/-- A path the shell takes as one word that is not an option. -/
def Safe (p : Text) : Prop := p ≠ [] ∧ (∀ c ∈ p, plain c = true) ∧ p.head? ≠ some '-'

instance (p : Text) : Decidable (Safe p) := by unfold Safe; infer_instance

/-- Files are read to their end. -/
def Reads (E : Env) : Prop := ∀ p t, E.read p t = (t, true)

/-- The raw text between commas. -/
def cell (line : Text) (i : Nat) : Text := (split ',' line).getD i []

/-- The sort key of a line. -/
def keyOf (cols keys : List Text) (line : Text) : List Text := keys.map fun k => cell line (cols.idxOf k)

/-- A row of a table as a line. -/
def row (cells : List Text) : Text := [','].intercalate cells

theorem index_ok {cols : List Text} : ∀ {keys : List Text}, (∀ k ∈ keys, cols.count k = 1) →
    keys.mapM (fieldIndex cols) = some (keys.map cols.idxOf)
  | [], _ => rfl
  | k :: keys, h => by
    have hk : fieldIndex cols k = some (cols.idxOf k) := by rw [fieldIndex, if_pos (h k (by simp))]
    rw [List.mapM_cons, hk, index_ok (fun k' hk' => h k' (by simp [hk']))]
    rfl

theorem keyOf_eq (cols keys : List Text) (line : Text) :
    textKeys ((keys.map cols.idxOf).map (· + 1)) line = keyOf cols keys line := by
  unfold textKeys keyOf
  rw [List.map_map, List.map_map]
  rfl

/-- A path of one word. -/
theorem lex_one {p : Text} (h : Safe p) (t : Text) :
    lexGo [] (p ++ ' ' :: t) = (lexGo [] t).map ([p].map Tok.word ++ ·) := by
  rw [lex_word h.1 h.2.1]
  rfl

/-- `MultiKeySort` of a path the shell leaves alone. -/
theorem multiKeySort_safe {E : Env} {fs : Fs} {inp out h body got : Text} {ok : Bool} {keys : List Text} (numeric : Bool)
    (hi : Safe inp) (ho : Safe out) (hio : inp ≠ out) (hh : '\n' ∉ h) (hf : fs inp = some (h ++ '\n' :: body))
    (hr : E.read inp (h ++ '\n' :: body) = (h ++ '\n' :: got, ok)) (hw : E.writable out = true)
    (hk : ∀ k ∈ keys, (E.columns h).count k = 1) (hc : E.cpus ≠ 0) :
    multiKeySort E fs inp out keys numeric false = .done (fs.set out (unlines (h ::
      isort (cmpKeys numeric ((keys.map (E.columns h).idxOf).map (· + 1))) (lines got)))) := by
  have hd := header_line (b := body) hh
  rw [multiKeySort_words (W := [inp]) (t := h ++ '\n' :: body) (idx := keys.map (E.columns h).idxOf) numeric (lex_one hi) (by simp)
    (by simpa using hi.2.2) ho.1 ho.2.1 hf (by simp) hw (by rw [hd]; exact index_ok hk) hc, hd, unlines_cons]
  have : (tailFiles E (fs.set out (h ++ ['\n'])) [inp]).1 = got := by
    show (tailOne E _ inp).1 = got
    unfold tailOne
    rw [set_other _ hio, hf]
    simp only [hr]
    exact afterFirst_line hh
  rw [this]

/-- **C117 (sorted).**  If both paths are single words for the shell, the file written has the header and the rows of the
input, ordered by the raw texts of the key columns; rows with equal keys keep their order; no other file changes. -/
theorem C117_sorted_partial {E : Env} {fs : Fs} {inp out h body : Text} {keys : List Text}
    (hi : Safe inp) (ho : Safe out) (hio : inp ≠ out) (hh : '\n' ∉ h) (hf : fs inp = some (h ++ '\n' :: body))
    (hr : Reads E) (hw : E.writable out = true) (hk : ∀ k ∈ keys, (E.columns h).count k = 1) (hc : E.cpus ≠ 0) :
    ∃ sorted : List Text,
      multiKeySort E fs inp out keys false false = .done (fs.set out (unlines (h :: sorted))) ∧
        sorted.Perm (lines body) ∧
        sorted.Pairwise (fun a b => keyOf (E.columns h) keys a ≤ keyOf (E.columns h) keys b) ∧
        ∀ v, sorted.filter (fun a => keyOf (E.columns h) keys a = v) =
          (lines body).filter fun a => keyOf (E.columns h) keys a = v := by
  have hcmp : ∀ x y, cmpKeys false ((keys.map (E.columns h).idxOf).map (· + 1)) x y = .gt ↔
      keyOf (E.columns h) keys y < keyOf (E.columns h) keys x := by
    intro x y
    rw [← keyOf_eq, ← keyOf_eq]
    exact (cmpKeys_text _ x y).2
  exact ⟨_, multiKeySort_safe false hi ho hio hh hf (hr _ _) hw hk hc, isort_perm _ _, isort_sorted hcmp _,
    fun v => isort_filter hcmp v _⟩

/-- A small world. -/
def demoEnv (cpus : Nat) : Env :=
  { writable := fun _ => true
    read := fun _ t => (t, true)
    run := fun ws _ fs => (fs.set "made".toList [], row ws ++ ['\n'], 0)
    columns := csvCells
    cpus := cpus }

example := C117_sorted_partial (E := demoEnv 4) (fs := Fs.set (fun _ => none) "in.csv".toList "name,id\nx,b\ny,a\nz,b\n".toList)
  (inp := "in.csv".toList) (out := "out.csv".toList) (h := "name,id".toList) (body := "x,b\ny,a\nz,b\n".toList)
  (keys := ["id".toList]) (by decide) (by decide) (by decide) (by decide) (by decide) (fun _ _ => rfl) rfl (by decide) (by decide)

/-! ### Tables without quotes -/

theorem split_row : ∀ {cs : List Text}, cs ≠ [] → (∀ c ∈ cs, ',' ∉ c) → split ',' (row cs) = cs
  | [], h, _ => absurd rfl h
  | [c], _, hc => by
    show split ',' ([','].intercalate [c]) = _
    rw [show [','].intercalate [c] = c by simp [List.intercalate]]
    exact Psi.Text.split_no _ _ (hc c (by simp))
  | c :: d :: cs, _, hc => by
    have ih := split_row (cs := d :: cs) (by simp) (fun x hx => hc x (by simp [hx]))
    have : row (c :: d :: cs) = c ++ ',' :: row (d :: cs) := by
      simp [row, List.intercalate, List.intersperse]
    rw [this, Psi.Text.split_cons _ _ _ (hc c (by simp)), ih]

theorem row_no_nl : ∀ {cs : List Text}, (∀ c ∈ cs, '\n' ∉ c) → '\n' ∉ row cs
  | [], _ => by simp [row, List.intercalate]
  | [c], h => by simpa [row, List.intercalate] using h
  | c :: d :: cs, h => by
    have ih := row_no_nl (cs := d :: cs) (fun x hx => h x (by simp [hx]))
    have : row (c :: d :: cs) = c ++ ',' :: row (d :: cs) := by
      simp [row, List.intercalate, List.intersperse]
    rw [this]
    simp [h c (by simp), ih]

/-- A permutation of an image comes from a permutation of the list. -/
theorem perm_of_map {α : Type} (f : α → Text) (g : Text → α) {l : List α} (hg : ∀ x ∈ l, g (f x) = x) {s : List Text}
    (h : s.Perm (l.map f)) : ∃ o : List α, o.Perm l ∧ s = o.map f := by
  refine ⟨s.map g, ?_, ?_⟩
  · have := h.map g
    rw [List.map_map, show l.map (g ∘ f) = l.map id from List.map_congr_left fun x hx => hg x hx, List.map_id] at this
    exact this
  · rw [List.map_map]
    symm
    calc s.map (f ∘ g) = s.map id := List.map_congr_left fun x hx => by
          obtain ⟨y, hy, rfl⟩ := List.mem_map.1 (h.mem_iff.1 hx)
          show f (g (f y)) = f y
          rw [hg y hy]
      _ = s := List.map_id _

theorem keys_sublist {K : Type} : ∀ rs : List (KeyRec K), (rs.map (·.key)).Sublist (Psi.Join.expand rs)
  | [] => List.Sublist.refl _
  | r :: rs => by
    show (r.key :: rs.map (·.key)).Sublist (List.replicate (r.dup + 1) r.key ++ Psi.Join.expand rs)
    rw [List.replicate_succ, List.cons_append]
    exact ((keys_sublist rs).trans (List.sublist_append_right _ _)).cons_cons _

/-- Run-length records of an ordered list of keys name each key once. -/
theorem records_nodup {K : Type} [LinearOrder K] [DecidableEq K] (e : K) {ks : List K} (hne : ks ≠ []) (hs : ks.Pairwise (· ≤ ·)) :
    ((keyInfoMake e [ks]).map (·.key)).Nodup := by
  obtain ⟨h1, -, h3⟩ := Psi.Join.keyInfoMake_spec e [ks] (by simpa using hne) (by simp)
  have hle : ((keyInfoMake e [ks]).map (·.key)).Pairwise (· ≤ ·) := by
    refine List.Pairwise.sublist (keys_sublist _) ?_
    rw [h1]
    simpa using hs
  have hne' : List.IsChain (· ≠ ·) ((keyInfoMake e [ks]).map (·.key)) := by
    rw [List.isChain_map]
    exact h3
  have hlt : List.IsChain (· < ·) ((keyInfoMake e [ks]).map (·.key)) := by
    generalize (keyInfoMake e [ks]).map (·.key) = l at hle hne' ⊢
    clear * - hle hne'
    induction l with
    | nil => exact List.isChain_nil
    | cons a l ih =>
      cases l with
      | nil => exact List.isChain_singleton _
      | cons b l =>
        obtain ⟨h1, h2⟩ := List.pairwise_cons.1 hle
        obtain ⟨h3, h4⟩ := List.isChain_cons_cons.1 hne'
        exact List.isChain_cons_cons.2 ⟨lt_of_le_of_ne (h1 b (by simp)) h3, ih h2 h4⟩
  exact (List.isChain_iff_pairwise.1 hlt).imp fun h => ne_of_lt h

/-- **C117 (keys are grouped).**  For a table whose cells hold no comma and no line end, the sorted file is the table with its
rows permuted, and the key file made from it names every key once. -/
theorem C117_keys_grouped_partial {E : Env} {fs : Fs} {inp out h : Text} {keys : List Text} {rows : List (List Text)}
    (hi : Safe inp) (ho : Safe out) (hio : inp ≠ out) (hh : '\n' ∉ h) (hf : fs inp = some (unlines (h :: rows.map row)))
    (hrow : ∀ r ∈ rows, r ≠ [] ∧ ∀ c ∈ r, ',' ∉ c ∧ '\n' ∉ c) (hne : rows ≠ [])
    (hr : Reads E) (hw : E.writable out = true) (hk : ∀ k ∈ keys, (E.columns h).count k = 1) (hc : E.cpus ≠ 0) :
    ∃ order : List (List Text),
      multiKeySort E fs inp out keys false false = .done (fs.set out (unlines (h :: order.map row))) ∧
        order.Perm rows ∧
        ((keyInfoMake [] [order.map fun r => keys.map fun k => r.getD ((E.columns h).idxOf k) []]).map (·.key)).Nodup := by
  rw [unlines_cons] at hf
  obtain ⟨s, h1, h2, h3, -⟩ := C117_sorted_partial hi ho hio hh hf hr hw hk hc
  rw [lines_unlines (fun l hl => by
    obtain ⟨r, hr', rfl⟩ := List.mem_map.1 hl
    exact row_no_nl fun c hc' => ((hrow r hr').2 c hc').2)] at h2
  have hsplit : ∀ r ∈ rows, split ',' (row r) = r := fun r hr' =>
    split_row (hrow r hr').1 fun c hc' => ((hrow r hr').2 c hc').1
  obtain ⟨o, ho1, rfl⟩ := perm_of_map row (split ',') hsplit h2
  refine ⟨o, h1, ho1, ?_⟩
  refine records_nodup (K := List Text) _ ?_ ?_
  · intro e
    have : o = [] := List.map_eq_nil_iff.1 e
    rw [this] at ho1
    exact hne (List.nil_perm.1 ho1)
  · rw [List.pairwise_map] at h3 ⊢
    refine h3.imp_of_mem fun {a b} ha hb hab => ?_
    unfold keyOf cell at hab
    rw [hsplit a (ho1.mem_iff.1 ha), hsplit b (ho1.mem_iff.1 hb)] at hab
    exact hab

example := C117_keys_grouped_partial (E := demoEnv 4) (fs := Fs.set (fun _ => none) "in.csv".toList "name,id\nx,b\ny,a\nz,b\n".toList)
  (inp := "in.csv".toList) (out := "out.csv".toList) (h := "name,id".toList)
  (rows := [["x".toList, "b".toList], ["y".toList, "a".toList], ["z".toList, "b".toList]])
  (keys := ["id".toList]) (by decide) (by decide) (by decide) (by decide) (by decide) (by decide) (by decide) (fun _ _ => rfl) rfl
  (by decide) (by decide)

/-! ### The file of intersection indices -/

/-- A line of the index file: the index and the number of rows of the peer. -/
def indexLine (e : Nat × Nat) : Text := dec e.1 ++ ',' :: dec e.2

theorem foldl_digits : ∀ (l : Text) (a v : Nat), digitsVal a l = some v →
    l.foldl (fun a c => a * 10 + (c.toNat - 48)) a = v ∧ l.takeWhile Char.isDigit = l := by
  intro l
  induction l with
  | nil => intro a v h; simp [digitsVal] at h; simp [h]
  | cons c l ih =>
    intro a v h
    unfold digitsVal at h
    cases hd : digit? c with
    | none => rw [hd] at h; cases h
    | some d =>
      rw [hd] at h
      obtain ⟨h1, h2⟩ := ih _ _ h
      have hc : (48 ≤ c.toNat ∧ c.toNat ≤ 57) ∧ d = c.toNat - 48 := by
        unfold digit? at hd
        split_ifs at hd with hx
        · refine ⟨?_, (Option.some.inj hd).symm⟩
          simpa using hx
      have hdig : Char.isDigit c = true := by
        unfold Char.isDigit
        have := hc.1
        simp only [Char.toNat, UInt32.le_iff_toNat_le, ge_iff_le, Bool.and_eq_true, decide_eq_true_eq] at this ⊢
        exact this
      refine ⟨?_, ?_⟩
      · rw [List.foldl_cons, ← hc.2]
        exact h1
      · rw [List.takeWhile_cons, if_pos hdig, h2]

theorem number_dec (n : Nat) : number (dec n) = n := by
  obtain ⟨h1, h2⟩ := foldl_digits _ _ _ (Psi.Text.digitsVal_dec n)
  unfold number
  rw [h2, h1]

theorem split_indexLine (e : Nat × Nat) : split ',' (indexLine e) = [dec e.1, dec e.2] := by
  unfold indexLine
  rw [Psi.Text.split_cons _ _ _ (Psi.Text.dec_not_mem _ _ (by decide)),
    Psi.Text.split_no _ _ (Psi.Text.dec_not_mem _ _ (by decide))]

theorem indexLine_no_nl (e : Nat × Nat) : '\n' ∉ indexLine e := by
  unfold indexLine
  simp [Psi.Text.dec_not_mem _ '\n' (by decide)]

/-- **C117 (index file).**  The file of intersection indices, `psi/interface.cc:157-160`, is sorted by the number, not by its
text: indices come out in ascending order, each with its count, equal ones in their old order. -/
theorem C117_index_file {E : Env} {fs : Fs} {inp out h key : Text} {entries : List (Nat × Nat)}
    (hi : Safe inp) (ho : Safe out) (hio : inp ≠ out) (hh : '\n' ∉ h)
    (hf : fs inp = some (unlines (h :: entries.map indexLine)))
    (hr : Reads E) (hw : E.writable out = true) (hk : (E.columns h).count key = 1) (hk0 : (E.columns h).idxOf key = 0)
    (hc : E.cpus ≠ 0) :
    ∃ order : List (Nat × Nat),
      multiKeySort E fs inp out [key] true false = .done (fs.set out (unlines (h :: order.map indexLine))) ∧
        order.Perm entries ∧ order.Pairwise (fun a b => a.1 ≤ b.1) ∧
        ∀ i, order.filter (fun a => a.1 = i) = entries.filter fun a => a.1 = i := by
  rw [unlines_cons] at hf
  have h1 := multiKeySort_safe (keys := [key]) true hi ho hio hh hf (hr _ _) hw (by simpa using hk) hc
  rw [lines_unlines (fun l hl => by
    obtain ⟨r, _, rfl⟩ := List.mem_map.1 hl
    exact indexLine_no_nl r)] at h1
  have hkeys : ∀ e, numKeys (([key].map (E.columns h).idxOf).map (· + 1)) (indexLine e) = [e.1] := by
    intro e
    unfold numKeys field
    rw [List.map_cons, List.map_nil, hk0]
    simp [split_indexLine, number_dec]
  have hcmp := fun x y => (cmpKeys_num (([key].map (E.columns h).idxOf).map (· + 1)) x y).2
  have hp := isort_perm (cmpKeys true (([key].map (E.columns h).idxOf).map (· + 1))) (entries.map indexLine)
  have hsort := isort_sorted hcmp (entries.map indexLine)
  have hfil := fun v => isort_filter (κ := numKeys (([key].map (E.columns h).idxOf).map (· + 1))) hcmp v (entries.map indexLine)
  obtain ⟨o, ho1, ho2⟩ := perm_of_map indexLine (fun l => (number (cell l 0), number (cell l 1)))
    (fun e _ => by unfold cell; rw [split_indexLine]; simp [number_dec]) hp
  rw [ho2] at h1 hsort
  refine ⟨o, h1, ho1, ?_, fun i => ?_⟩
  · rw [List.pairwise_map] at hsort
    refine hsort.imp fun {a b} hab => ?_
    rw [hkeys, hkeys] at hab
    by_contra hlt
    have : ([b.1] : List Nat) < [a.1] := List.cons_lt_cons_iff.2 (Or.inl (by omega))
    exact absurd hab (not_le.2 this)
  · have := hfil [i]
    rw [ho2, List.filter_map, List.filter_map] at this
    have hinj : Function.Injective indexLine := by
      intro a b hab
      have := congrArg (split ',') hab
      rw [split_indexLine, split_indexLine] at this
      injection this with e1 e2
      injection e2 with e2 _
      exact Prod.ext (Psi.Text.dec_injective e1) (Psi.Text.dec_injective e2)
    have := (List.map_injective_iff.2 hinj) this
    have hpred : ((fun a => decide (numKeys (([key].map (E.columns h).idxOf).map (· + 1)) a = [i])) ∘ indexLine) =
        fun a : Nat × Nat => decide (a.1 = i) := by
      funext a
      simp only [Function.comp, hkeys]
      simp
    rw [hpred] at this
    exact this

example := C117_index_file (E := demoEnv 4)
  (fs := Fs.set (fun _ => none) "i".toList (unlines ("idx,cnt".toList :: [(10, 1), (9, 2), (100, 1)].map indexLine)))
  (inp := "i".toList) (out := "o".toList) (h := "idx,cnt".toList) (key := "idx".toList) (entries := [(10, 1), (9, 2), (100, 1)])
  (by decide) (by decide) (by decide) (by decide) (set_same _ _ _) (fun _ _ => rfl) rfl (by decide) (by decide) (by decide)

/-! ### Paths that are not single words -/

/-- **C117 (violated: blank in a path).**  If the path of the input has a blank and its two halves are not files, the call
returns as if nothing had happened: the sorted file has the header and no row. -/
theorem C117_space_loses_rows {E : Env} {fs : Fs} {a b out t : Text} {keys : List Text} (numeric : Bool)
    (ha : Safe a) (hb : Safe b) (ho : Safe out) (hao : a ≠ out) (hbo : b ≠ out) (hfa : fs a = none) (hfb : fs b = none)
    (hf : fs (a ++ ' ' :: b) = some t) (ht : t ≠ []) (hw : E.writable out = true)
    (hk : ∀ k ∈ keys, (E.columns (header t)).count k = 1) (hc : E.cpus ≠ 0) :
    multiKeySort E fs (a ++ ' ' :: b) out keys numeric false = .done (fs.set out (header t ++ ['\n'])) := by
  have hT : ∀ u, lexGo [] ((a ++ ' ' :: b) ++ ' ' :: u) = (lexGo [] u).map ([a, b].map Tok.word ++ ·) := by
    intro u
    rw [List.append_assoc, List.cons_append, lex_one ha, lex_one hb, Option.map_map]
    rfl
  rw [multiKeySort_words numeric hT (by simp) (by
    intro w hw'
    rcases List.mem_cons.1 hw' with rfl | hw'
    · exact ha.2.2
    · rw [List.mem_singleton.1 hw']; exact hb.2.2) ho.1 ho.2.1 hf ht hw (index_ok hk) hc]
  have : (tailFiles E (fs.set out (header t ++ ['\n'])) [a, b]).1 = [] := by
    show (tailMany E _ true [a, b]).1 = []
    unfold tailMany
    rw [set_other _ hao, hfa]
    simp only
    unfold tailMany
    rw [set_other _ hbo, hfb]
    rfl
  rw [this]
  rfl

example := C117_space_loses_rows (E := demoEnv 4) (fs := Fs.set (fun _ => none) "my file".toList "id\nb\na\n".toList)
  (a := "my".toList) (b := "file".toList) (out := "out".toList) (t := "id\nb\na\n".toList) (keys := ["id".toList]) false
  (by decide) (by decide) (by decide) (by decide) (by decide) (by decide) (by decide) (by decide) (by decide) rfl (by decide) (by decide)

/-- **C117 (violated: another file is sorted).**  If the first half of such a path is a file, its rows are written instead,
together with a line that `tail` adds. -/
theorem C117_space_other_file {E : Env} {fs : Fs} {a b out t h' body' : Text} {keys : List Text} (numeric : Bool)
    (ha : Safe a) (hb : Safe b) (ho : Safe out) (hao : a ≠ out) (hbo : b ≠ out) (hh' : '\n' ∉ h')
    (hfa : fs a = some (h' ++ '\n' :: body')) (hfb : fs b = none)
    (hf : fs (a ++ ' ' :: b) = some t) (ht : t ≠ []) (hr : Reads E) (hw : E.writable out = true)
    (hk : ∀ k ∈ keys, (E.columns (header t)).count k = 1) (hc : E.cpus ≠ 0) :
    ∃ sorted : List Text,
      multiKeySort E fs (a ++ ' ' :: b) out keys numeric false = .done (fs.set out (unlines (header t :: sorted))) ∧
        sorted.Perm (("==> ".toList ++ a ++ " <==".toList) :: lines body') := by
  have hT : ∀ u, lexGo [] ((a ++ ' ' :: b) ++ ' ' :: u) = (lexGo [] u).map ([a, b].map Tok.word ++ ·) := by
    intro u
    rw [List.append_assoc, List.cons_append, lex_one ha, lex_one hb, Option.map_map]
    rfl
  refine ⟨_, by
    rw [multiKeySort_words numeric hT (by simp) (by
      intro w hw'
      rcases List.mem_cons.1 hw' with rfl | hw'
      · exact ha.2.2
      · rw [List.mem_singleton.1 hw']; exact hb.2.2) ho.1 ho.2.1 hf ht hw (index_ok hk) hc, ← unlines_cons], ?_⟩
  refine (isort_perm _ _).trans ?_
  have : (tailFiles E (fs.set out (header t ++ ['\n'])) [a, b]).1 = ("==> ".toList ++ a ++ " <==".toList) ++ '\n' :: body' := by
    show (tailMany E _ true [a, b]).1 = _
    unfold tailMany
    rw [set_other _ hao, hfa]
    simp only
    unfold tailMany
    rw [set_other _ hbo, hfb]
    simp only [hr a _, afterFirst_line hh']
    show (if true = true then ([] : Text) else ['\n']) ++ "==> ".toList ++ a ++ " <==\n".toList ++ body' ++ [] = _
    rw [if_pos rfl, List.append_nil, show " <==\n".toList = " <==".toList ++ ['\n'] from rfl]
    simp only [List.nil_append, List.append_assoc, List.singleton_append]
  rw [this, Psi.Text.lines_line]
  have := fun hx => ha.2.1 '\n' hx
  simp only [List.mem_append, not_or]
  exact ⟨⟨by decide, fun hx => absurd (this hx) (by decide)⟩, by decide⟩

example := C117_space_other_file (E := demoEnv 4)
  (fs := (Fs.set (fun _ => none) "my file".toList "id\nb\na\n".toList).set "my".toList "id\nsecret\n".toList)
  (a := "my".toList) (b := "file".toList) (out := "out".toList) (t := "id\nb\na\n".toList) (h' := "id".toList)
  (body' := "secret\n".toList) (keys := ["id".toList]) false
  (by decide) (by decide) (by decide) (by decide) (by decide) (by decide) (by decide) (by decide) (by decide) (by decide)
  (fun _ _ => rfl) rfl (by decide) (by decide)

/-- **C117 (violated: a path is run).**  What follows a semicolon in the path of the input is run as a command; its output is
sorted into the file, and the call returns. -/
theorem C117_semicolon_runs {E : Env} {fs : Fs} {p c a out t : Text} {keys : List Text} (numeric : Bool)
    (hp : Safe p) (hcmd : Safe c) (ha : Safe a) (ho : Safe out)
    (hne : '=' ∉ c ∧ c ≠ "tail".toList ∧ c ≠ "sort".toList ∧ c ≠ "uniq".toList)
    (hf : fs (p ++ ';' :: (c ++ ' ' :: a)) = some t) (ht : t ≠ []) (hw : E.writable out = true)
    (hk : ∀ k ∈ keys, (E.columns (header t)).count k = 1) (hc : E.cpus ≠ 0) :
    ∃ (fs' : Fs) (o : Text) (s : Nat) (sorted : List Text),
      E.run [c, a] [] (fs.set out (header t ++ ['\n'])) = (fs', o, s) ∧
        multiKeySort E fs (p ++ ';' :: (c ++ ' ' :: a)) out keys numeric false =
          .done (fs'.set out ((fs' out).getD [] ++ unlines sorted)) ∧ sorted.Perm (lines o) := by
  obtain ⟨⟨fs', o, s⟩, hrun⟩ : ∃ r, E.run [c, a] [] (fs.set out (header t ++ ['\n'])) = r := ⟨_, rfl⟩
  refine ⟨fs', o, s, _, hrun, ?_, isort_perm (cmpKeys numeric ((keys.map (E.columns (header t)).idxOf).map (· + 1))) _⟩
  have hT : ∀ u, lexGo [] ((p ++ ';' :: (c ++ ' ' :: a)) ++ ' ' :: u) =
      (lexGo [] u).map ((.word p :: .semi :: [c, a].map Tok.word) ++ ·) := by
    intro u
    rw [List.append_assoc, List.cons_append, lex_semi hp.1 hp.2.1, List.append_assoc, List.cons_append, lex_one hcmd, lex_one ha,
      Option.map_map, Option.map_map]
    rfl
  unfold multiKeySort
  rw [hf]
  show (if t = [] then _ else if E.writable out = false then _ else _) = _
  rw [if_neg ht, if_neg (by rw [hw]; decide)]
  simp only [index_ok hk]
  have hexec : exec E (fs.set out (header t ++ ['\n'])) [c, a] [] = some (fs', o, s) := by
    unfold exec
    have hlc : ([c, a] : List Text).head? ≠ some "LC_ALL=C".toList := by
      intro e
      have e : c = "LC_ALL=C".toList := by simpa using e
      exact hne.1 (by rw [e]; decide)
    rw [if_neg hlc]
    show (if '=' ∈ c then _ else if c = "tail".toList then _ else if c = "sort".toList then _ else if c = "uniq".toList then _
      else some (E.run [c, a] [] _)) = _
    rw [if_neg hne.1, if_neg hne.2.1, if_neg hne.2.2.1, if_neg hne.2.2.2, hrun]
  have hsys : system E (fs.set out (header t ++ ['\n']))
      (command (p ++ ';' :: (c ++ ' ' :: a)) out ((keys.map (E.columns (header t)).idxOf).map (· + 1)) numeric false E.cpus) =
      some (fs'.set out ((fs' out).getD [] ++
        unlines (isort (cmpKeys numeric ((keys.map (E.columns (header t)).idxOf).map (· + 1))) (lines o))), 0) := by
    unfold system
    rw [lex_command hT ho.1 ho.2.1, Option.bind_some]
    have := parse_semi (["tail".toList, "-n".toList, "+2".toList] ++ [p]) [c, a]
      (sortWords ((keys.map (E.columns (header t)).idxOf).map (· + 1)) numeric E.cpus) out
    rw [show (["tail".toList, "-n".toList, "+2".toList].map Tok.word ++ (.word p :: .semi :: [c, a].map Tok.word)) ++
        .pipe :: ((sortWords ((keys.map (E.columns (header t)).idxOf).map (· + 1)) numeric E.cpus).map Tok.word ++
          [.append, .word out]) =
        (["tail".toList, "-n".toList, "+2".toList] ++ [p]).map Tok.word ++ .semi :: ([c, a].map Tok.word ++
          .pipe :: ((sortWords ((keys.map (E.columns (header t)).idxOf).map (· + 1)) numeric E.cpus).map Tok.word ++
          [.append, .word out])) from rfl, this, Option.bind_some]
    show (pipeline E _ [] [⟨["tail".toList, "-n".toList, "+2".toList] ++ [p], []⟩]).bind (fun r => list E r.1 [_]) = _
    show ((exec E _ (["tail".toList, "-n".toList, "+2".toList] ++ [p]) []).map _).bind _ = _
    rw [exec_tail E _ (by simp) (by simpa using hp.2.2), Option.map_some, Option.bind_some]
    exact pipe_sort E hexec hw hc _ numeric
  rw [hsys]
  rfl

example := C117_semicolon_runs (E := demoEnv 4) (fs := Fs.set (fun _ => none) "x;touch y".toList "id\nb\na\n".toList)
  (p := "x".toList) (c := "touch".toList) (a := "y".toList) (out := "out".toList) (t := "id\nb\na\n".toList) (keys := ["id".toList])
  false (by decide) (by decide) (by decide) (by decide) (by decide) (by decide) (by decide) rfl (by decide) (by decide)

/-- **C117 (violated: a read error goes unnoticed).**  If reading stops after the rows `got`, the rest is missing from the
sorted file and the call returns: the status of the command line is that of `sort`. -/
theorem C117_read_error_unnoticed {E : Env} {fs : Fs} {inp out h body got : Text} {keys : List Text}
    (hi : Safe inp) (ho : Safe out) (hio : inp ≠ out) (hh : '\n' ∉ h) (hf : fs inp = some (h ++ '\n' :: body))
    (hr : E.read inp (h ++ '\n' :: body) = (h ++ '\n' :: got, false)) (hw : E.writable out = true)
    (hk : ∀ k ∈ keys, (E.columns h).count k = 1) (hc : E.cpus ≠ 0) :
    ∃ sorted : List Text,
      multiKeySort E fs inp out keys false false = .done (fs.set out (unlines (h :: sorted))) ∧ sorted.Perm (lines got) :=
  ⟨_, multiKeySort_safe false hi ho hio hh hf hr hw hk hc, isort_perm _ _⟩

example := C117_read_error_unnoticed (E := { demoEnv 4 with read := fun _ t => (t.take 5, false) })
  (fs := Fs.set (fun _ => none) "in".toList "id\nb\na\n".toList) (inp := "in".toList) (out := "out".toList) (h := "id".toList)
  (body := "b\na\n".toList) (got := "b\n".toList) (keys := ["id".toList])
  (by decide) (by decide) (by decide) (by decide) (by decide) (by decide) rfl (by decide) (by decide)

/-- **C117 (violated: no processor).**  If `GetCpuCount` gives 0, as `hardware_concurrency` may, every call throws. -/
theorem C117_no_cpus {E : Env} {fs : Fs} {inp out t : Text} {keys : List Text} (numeric : Bool)
    (hi : Safe inp) (ho : Safe out) (hf : fs inp = some t) (ht : t ≠ []) (hw : E.writable out = true)
    (hk : ∀ k ∈ keys, (E.columns (header t)).count k = 1) (hc : E.cpus = 0) :
    multiKeySort E fs inp out keys numeric false = .throws := by
  unfold multiKeySort
  rw [hf]
  show (if t = [] then _ else if E.writable out = false then _ else _) = _
  rw [if_neg ht, if_neg (by rw [hw]; decide)]
  simp only [index_ok hk]
  rw [system_words E _ (lex_one hi) ho.1 ho.2.1, hc]
  obtain ⟨fs'', h⟩ := pipe_sort_zero E (exec_tail E (fs.set out (header t ++ ['\n'])) (W := [inp]) (by simp)
    (by simpa using hi.2.2) []) hw ((keys.map (E.columns (header t)).idxOf).map (· + 1)) numeric
  rw [h]
  rfl

example := C117_no_cpus (E := demoEnv 0) (fs := Fs.set (fun _ => none) "in".toList "id\nb\na\n".toList) (inp := "in".toList)
  (out := "out".toList) (t := "id\nb\na\n".toList) (keys := ["id".toList]) false
  (by decide) (by decide) (by decide) (by decide) rfl (by decide) rfl

/-! ### Quotes -/

/-- Sorted as the text between commas, rows with equal keys may end up apart. -/
theorem quoted_apart {E : Env} {fs : Fs} {inp out h : Text} {rows sorted : List Text} {keys : List Text} {recs : List (KeyRec Text)}
    (hcol : E.columns = csvCells) (hi : Safe inp) (ho : Safe out) (hio : inp ≠ out) (hh : '\n' ∉ h)
    (hnl : ∀ l ∈ rows, '\n' ∉ l) (hf : fs inp = some (unlines (h :: rows)))
    (hr : Reads E) (hw : E.writable out = true) (hk : ∀ k ∈ keys, (csvCells h).count k = 1) (hc : E.cpus ≠ 0)
    (hs : isort (cmpKeys false ((keys.map (csvCells h).idxOf).map (· + 1))) rows = sorted)
    (hrec : keyInfoMake [] [sorted.map fun l => row (keys.map fun k => (csvCells l).getD ((csvCells h).idxOf k) [])] = recs) :
    ∃ sorted : List Text,
      multiKeySort E fs inp out keys false false = .done (fs.set out (unlines (h :: sorted))) ∧
      keyInfoMake [] [sorted.map fun l => row (keys.map fun k => (csvCells l).getD ((csvCells h).idxOf k) [])] = recs := by
  refine ⟨sorted, ?_, hrec⟩
  rw [unlines_cons] at hf
  rw [multiKeySort_safe false hi ho hio hh hf (hr _ _) hw (by rw [hcol]; exact hk) hc, hcol, lines_unlines hnl, hs]

/-- **C117 (violated: a comma in a quoted cell).**  For `sort` the quotes mean nothing, so it takes the wrong field: the keys
K1, K2, K1 stay apart and the key file names K1 twice. -/
theorem C117_quoted_comma {E : Env} {fs : Fs} (hcol : E.columns = csvCells) (hr : Reads E) (hw : ∀ p, E.writable p = true)
    (hc : E.cpus ≠ 0)
    (hf : fs "in".toList = some "name,id\n\"p,b\",K1\n\"p,c\",K2\n\"p,d\",K1\n".toList) :
    ∃ sorted : List Text,
      multiKeySort E fs "in".toList "out".toList ["id".toList] false false =
        .done (fs.set "out".toList (unlines ("name,id".toList :: sorted))) ∧
      keyInfoMake [] [sorted.map fun l => row (["id".toList].map fun k => (csvCells l).getD ((csvCells "name,id".toList).idxOf k) [])] =
        [⟨"K1".toList, 0, 0⟩, ⟨"K2".toList, 1, 0⟩, ⟨"K1".toList, 2, 0⟩] :=
  quoted_apart (rows := ["\"p,b\",K1".toList, "\"p,c\",K2".toList, "\"p,d\",K1".toList])
    (sorted := ["\"p,b\",K1".toList, "\"p,c\",K2".toList, "\"p,d\",K1".toList]) hcol (by decide) (by decide) (by decide) (by decide)
    (by decide) hf hr (hw _) (by decide) hc (by decide) (by decide)

example := C117_quoted_comma (E := demoEnv 4)
  (fs := Fs.set (fun _ => none) "in".toList "name,id\n\"p,b\",K1\n\"p,c\",K2\n\"p,d\",K1\n".toList) rfl (fun _ _ => rfl) (fun _ => rfl)
  (by decide) (set_same _ _ _)

/-- **C117 (violated: two spellings of a key).**  A key that is written with quotes in one row and without in another is
sorted to two places; the key file names it twice. -/
theorem C117_quoted_spelling {E : Env} {fs : Fs} (hcol : E.columns = csvCells) (hr : Reads E) (hw : ∀ p, E.writable p = true)
    (hc : E.cpus ≠ 0) (hf : fs "in".toList = some "id\nb\na\n\"b\"\n".toList) :
    ∃ sorted : List Text,
      multiKeySort E fs "in".toList "out".toList ["id".toList] false false =
        .done (fs.set "out".toList (unlines ("id".toList :: sorted))) ∧
      keyInfoMake [] [sorted.map fun l => row (["id".toList].map fun k => (csvCells l).getD ((csvCells "id".toList).idxOf k) [])] =
        [⟨"b".toList, 0, 0⟩, ⟨"a".toList, 1, 0⟩, ⟨"b".toList, 2, 0⟩] :=
  quoted_apart (rows := ["b".toList, "a".toList, "\"b\"".toList])
    (sorted := ["\"b\"".toList, "a".toList, "b".toList]) hcol (by decide) (by decide) (by decide) (by decide)
    (by decide) hf hr (hw _) (by decide) hc (by decide) (by decide)

example := C117_quoted_spelling (E := demoEnv 4) (fs := Fs.set (fun _ => none) "in".toList "id\nb\na\n\"b\"\n".toList) rfl
  (fun _ _ => rfl) (fun _ => rfl) (by decide) (set_same _ _ _)

/-! ### The number of processors -/

/-- A range of processors as the kernel prints it. -/
def rangeText (r : Nat × Nat) : Text := if r.1 = r.2 then dec r.1 else dec r.1 ++ '-' :: dec r.2

theorem cpusetItem_range {r : Nat × Nat} (h : r.1 ≤ r.2) : cpusetItem (rangeText r) = some ((r.2 - r.1 + 1 : Nat) : Int) := by
  have hno : ∀ n, '-' ∉ dec n := fun n => Psi.Text.dec_not_mem n '-' (by decide)
  unfold rangeText cpusetItem
  by_cases he : r.1 = r.2
  · rw [if_pos he, if_neg (hno _), if_neg (Psi.Text.dec_ne_nil _), he]
    simp
  · rw [if_neg he, if_pos (by simp)]
    have htw : (dec r.1 ++ '-' :: dec r.2).takeWhile (· ≠ '-') = dec r.1 := by
      rw [List.takeWhile_append_of_pos (by
        intro c hc
        have : c ≠ '-' := fun e => hno _ (e ▸ hc)
        simpa using this)]
      simp
    have hdw : ((dec r.1 ++ '-' :: dec r.2).dropWhile (· ≠ '-')).drop 1 = dec r.2 := by
      rw [List.dropWhile_append_of_pos (by
        intro c hc
        have : c ≠ '-' := fun e => hno _ (e ▸ hc)
        simpa using this)]
      simp
    rw [htw, hdw, Psi.Text.digitsVal_dec, Psi.Text.digitsVal_dec]
    simp only [Option.some.injEq]
    omega

theorem rangeText_no (r : Nat × Nat) : ',' ∉ rangeText r := by
  have hno : ∀ n, ',' ∉ dec n := fun n => Psi.Text.dec_not_mem n ',' (by decide)
  unfold rangeText
  split_ifs
  · exact hno _
  · simp [hno]

/-- **C117 (processors).**  The list the kernel prints for a set of processors — disjoint ranges — is read as the size of the
set. -/
theorem C117_cpuset (rs : List (Nat × Nat)) (hne : rs ≠ []) (hle : ∀ r ∈ rs, r.1 ≤ r.2)
    (hdis : rs.Pairwise fun a b => Disjoint (Finset.Icc a.1 a.2) (Finset.Icc b.1 b.2)) :
    parseCpuset (row (rs.map rangeText)) =
      some (((rs.map fun r => Finset.Icc r.1 r.2).foldr (· ∪ ·) ∅).card : Int) := by
  unfold parseCpuset
  rw [split_row (by simpa using hne) (by
    intro c hc
    obtain ⟨r, _, rfl⟩ := List.mem_map.1 hc
    exact rangeText_no r)]
  clear hne
  induction rs with
  | nil => rfl
  | cons r rs ih =>
    obtain ⟨h1, h2⟩ := List.pairwise_cons.1 hdis
    have ih := ih (fun x hx => hle x (by simp [hx])) h2
    rw [List.map_cons, List.mapM_cons, cpusetItem_range (hle r (by simp))]
    cases hm : (rs.map rangeText).mapM cpusetItem with
    | none => rw [hm] at ih; cases ih
    | some v =>
      rw [hm] at ih
      have ih := Option.some.inj ih
      show some (_ + v.sum) = _
      rw [ih, List.map_cons, List.foldr_cons, Finset.card_union_of_disjoint, Nat.card_Icc]
      · have := hle r (by simp)
        push_cast
        congr 1
        omega
      · clear * - h1
        induction rs with
        | nil => simp
        | cons q rs ih =>
          rw [List.map_cons, List.foldr_cons, Finset.disjoint_union_right]
          exact ⟨h1 q (by simp), ih (fun x hx => h1 x (by simp [hx]))⟩

example := C117_cpuset [(0, 3), (5, 5), (8, 10)] (by decide) (by decide) (by decide)

end Psi.ShellSort
