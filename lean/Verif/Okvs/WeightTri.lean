import Verif.Okvs.WeightLemmas
import Verif.Okvs.Props

/-! # The triangulation with the linked lists follows the triangulation of `Model.lean` -/

namespace Psi.Okvs

/-- Every row leaves two columns in the lists when its first column is taken: it has three columns, or two
and there is a column without keys. -/
def Room (rows : List Row) (S : Nat) : Prop :=
  (∀ r ∈ rows, 3 ≤ r.cols.length) ∨
    ((∀ r ∈ rows, 2 ≤ r.cols.length) ∧ ∃ z < S, ∀ r ∈ rows, z ∉ r.cols)

/-- Columns without keys stay in the lists. -/
def Idle (rows : List Row) (S : Nat) (L : Nat → List Nat) : Prop := ∀ z < S, (∀ r ∈ rows, z ∉ r.cols) → In L z

theorem cols_mem {rows : List Row} {i : Nat} (hi : i < rows.length) : ∃ r ∈ rows, cols rows i = r.cols := by
  refine ⟨rows[i], List.getElem_mem hi, ?_⟩
  unfold cols
  simp [hi]

theorem other_of_length {l : List Nat} (hn : l.Nodup) {c : Nat} (hc : c ∈ l) (h : 2 ≤ l.length) :
    ∃ y ∈ l, y ≠ c := by
  obtain ⟨a, b, rfl⟩ := List.append_of_mem hc
  cases a with
  | cons q a =>
    refine ⟨q, by simp, ?_⟩
    rintro rfl
    simp at hn
  | nil =>
    cases b with
    | cons q b =>
      refine ⟨q, by simp, ?_⟩
      rintro rfl
      simp at hn
    | nil => simp at h

theorem two_others {l : List Nat} (hn : l.Nodup) {c : Nat} (hc : c ∈ l) (h : 3 ≤ l.length) :
    ∃ y1 ∈ l, ∃ y2 ∈ l, y1 ≠ c ∧ y2 ≠ c ∧ y1 ≠ y2 := by
  have hlen : (l.erase c).length = l.length - 1 := List.length_erase_of_mem hc
  have hnd : (l.erase c).Nodup := hn.erase c
  have hsub : ∀ y, y ∈ l.erase c → y ∈ l ∧ y ≠ c := fun y hy => by
    rw [hn.mem_erase_iff] at hy; exact ⟨hy.2, hy.1⟩
  revert hlen hnd hsub
  generalize l.erase c = m
  intro hlen hnd hsub
  match m, hlen, hnd, hsub with
  | [], hl, _, _ => simp at hl; omega
  | [_], hl, _, _ => simp at hl; omega
  | a :: b :: t, _, hnd, hsub =>
    refine ⟨a, (hsub a (by simp)).1, b, (hsub b (by simp)).1, (hsub a (by simp)).2, (hsub b (by simp)).2, ?_⟩
    rintro rfl
    simp at hnd

theorem unset_pos {rows : List Row} {set : Nat → Bool} {c r : Nat} (hr : r < rows.length) (hc : c ∈ cols rows r)
    (hs : set r = false) : unset rows set c ≠ 0 := by
  intro h0
  unfold unset at h0
  rw [List.length_eq_zero_iff, List.filter_eq_nil_iff] at h0
  have := h0 r (List.mem_range.mpr hr)
  simp [hc, hs] at this

theorem unset_idle {rows : List Row} {set : Nat → Bool} {z : Nat} (h : ∀ r ∈ rows, z ∉ r.cols) :
    unset rows set z = 0 := by
  apply unset_zero_of
  intro r hr hz
  obtain ⟨r', h1, h2⟩ := cols_mem hr
  rw [h2] at hz
  exact absurd hz (h r' h1)

/-- The states correspond. -/
def RelW (S : Nat) (rows : List Row) (tw : TriW) (t : Tri) : Prop :=
  ∃ L, Rep S tw.wd L ∧ Idle rows S L ∧ tw.abs = t

/-- The outcomes correspond. -/
def Sim {α β : Type} (R : α → β → Prop) : Except WErr α → Except Err β → Prop
  | .ok a, .ok b => R a b
  | .error e, .error e' => e = .base e'
  | _, _ => False

theorem visitW_sim {S : Nat} {rows : List Row} {c : Nat} (h : RowsOk rows S) (hroom : Room rows S)
    {old : List (Nat × Nat)} {done : List Nat} {sw : TriW × Bool} {s : Tri × Bool} {r : Nat}
    (hm : Mid rows c old done s) (hr : r < rows.length) (hc : c ∈ cols rows r) (hrel : RelW S rows sw.1 s.1)
    (hb : sw.2 = s.2) :
    Sim (fun a b => RelW S rows a.1 b.1 ∧ a.2 = b.2) (visitW rows c sw r) (visit rows c s r) := by
  obtain ⟨L, hrep, hidle, habs⟩ := hrel
  have hset : sw.1.set = s.1.set := by rw [← habs]; rfl
  have hmain : sw.1.main = s.1.main := by rw [← habs]; rfl
  have hgap : sw.1.gap = s.1.gap := by rw [← habs]; rfl
  have hwt : (fun x => (sw.1.wd.nodes x).weight) = s.1.wt := by rw [← habs]; rfl
  unfold visitW visit
  by_cases hs : s.1.set r = true
  · rw [if_pos hs, if_pos (by rw [hset]; exact hs)]
    exact ⟨⟨L, hrep, hidle, habs⟩, hb⟩
  · rw [if_neg hs, if_neg (by rw [hset]; exact hs)]
    have hs' : s.1.set r = false := by simpa using hs
    have hin : ∀ y ∈ cols rows r, y ≠ c → In L y := by
      intro y hy hyc
      have h1 : (sw.1.wd.nodes y).weight ≠ 0 := by
        have : (sw.1.wd.nodes y).weight = s.1.wt y := congrFun hwt y
        rw [this, hm.wt y hyc]
        exact unset_pos hr hy hs'
      exact ⟨_, hrep.live y h1⟩
    obtain ⟨r', hr'm, hr'c⟩ := cols_mem hr
    have htwo : ∃ y1 y2, y1 ≠ y2 ∧ In L y1 ∧ In L y2 := by
      rcases hroom with h3 | ⟨h2, z, hz, hzr⟩
      · obtain ⟨y1, m1, y2, m2, n1, n2, n3⟩ := two_others (cols_nodup h r) hc (by rw [hr'c]; exact h3 r' hr'm)
        exact ⟨y1, y2, n3, hin y1 m1 n1, hin y2 m2 n2⟩
      · obtain ⟨y, m1, n1⟩ := other_of_length (cols_nodup h r) hc (by rw [hr'c]; exact h2 r' hr'm)
        refine ⟨y, z, ?_, hin y m1 n1, hidle z hz hzr⟩
        rintro rfl
        rw [hr'c] at m1
        exact hzr r' hr'm m1
    obtain ⟨y1, y2, hne, i1, i2⟩ := htwo
    obtain ⟨d', L', e1, r1, in1, w1⟩ := decs_ok (cols rows r) hrep hne i1 i2
    have hidle' : Idle rows S L' := fun z hz hzr => (in1 z).mpr (hidle z hz hzr)
    rw [e1]
    simp only [bind, Except.bind]
    rw [hb, hset, hmain, hgap]
    rw [hwt] at w1
    by_cases hf : s.2 = true
    · rw [if_pos hf, if_pos hf]
      refine ⟨⟨L', r1, hidle', ?_⟩, rfl⟩
      unfold TriW.abs; dsimp only; rw [w1]
    · rw [if_neg hf, if_neg hf]
      by_cases hd : dns rows (s.1.main.getLastD (0, 0)).1 = dns rows r
      · rw [if_pos hd, if_pos hd]; rfl
      · rw [if_neg hd, if_neg hd]
        refine ⟨⟨L', r1, hidle', ?_⟩, rfl⟩
        unfold TriW.abs; dsimp only; rw [w1]

theorem visitW_fold {S : Nat} {rows : List Row} {c : Nat} (h : RowsOk rows S) (hroom : Room rows S)
    {old : List (Nat × Nat)} (l : List Nat) (hl : ∀ r ∈ l, r < rows.length ∧ c ∈ cols rows r) {done : List Nat}
    {sw : TriW × Bool} {s : Tri × Bool} (hm : Mid rows c old done s) (hrel : RelW S rows sw.1 s.1) (hb : sw.2 = s.2) :
    Sim (fun a b => RelW S rows a.1 b.1 ∧ a.2 = b.2) (l.foldlM (visitW rows c) sw) (l.foldlM (visit rows c) s) := by
  induction l generalizing done sw s with
  | nil => exact ⟨hrel, hb⟩
  | cons a l ih =>
    rw [List.foldlM_cons, List.foldlM_cons]
    have hstep := visitW_sim h hroom hm (hl a List.mem_cons_self).1 (hl a List.mem_cons_self).2 hrel hb
    cases hv : visit rows c s a with
    | error e =>
      rw [hv] at hstep
      cases hvw : visitW rows c sw a with
      | error e' => rw [hvw] at hstep; exact hstep
      | ok x => rw [hvw] at hstep; exact hstep.elim
    | ok s1 =>
      rw [hv] at hstep
      cases hvw : visitW rows c sw a with
      | error e' => rw [hvw] at hstep; exact hstep.elim
      | ok x =>
        rw [hvw] at hstep
        exact ih (fun r hr => hl r (List.mem_cons_of_mem _ hr))
          (mid_visit h hm (hl a List.mem_cons_self).1 (hl a List.mem_cons_self).2 hv).1 hstep.1 hstep.2

theorem mid_start {rows : List Row} {t : Tri} (hi : Inv rows t) (c : Nat) :
    Mid rows c t.main [] ({ t with wt := Function.update t.wt c 0 }, true) where
  wt := by intro c' hc'; dsimp only; rw [Function.update_of_ne hc']; exact hi.wt c'
  wtc := by simp
  setIff := hi.setIff
  lt := hi.lt
  memCol := hi.memCol
  fixed := hi.fixed
  tri := hi.tri
  gapMain := hi.gapMain
  done := by intro r hr; cases hr
  mainEq := ⟨fun _ => rfl, fun h => absurd h (by simp)⟩

theorem colStepW_sim {S : Nat} {rows : List Row} (h : RowsOk rows S) (hroom : Room rows S) {tw : TriW} {t : Tri}
    (hi : Inv rows t) (hrel : RelW S rows tw t) (hl : tw.wd.len > 1) :
    ∃ c, c < S ∧ t.wt c ≠ 0 ∧ (∀ x, t.wt x ≠ 0 → t.wt c ≤ t.wt x) ∧
      Sim (RelW S rows) (colStepW rows tw) (colStep rows t c) := by
  obtain ⟨L, hrep, hidle, habs⟩ := hrel
  subst habs
  obtain ⟨c, g1, g2, g3, g4, g5⟩ := getMin_ok hrep hl
  refine ⟨c, g2, g3, g5, ?_⟩
  have hu : 0 < unset rows tw.abs.set c := by rw [← hi.wt c]; exact Nat.pos_of_ne_zero g3
  obtain ⟨r, hr, hcr, hrs⟩ := exists_unset hu
  obtain ⟨r', hr'm, hr'c⟩ := cols_mem hr
  have h2 : 2 ≤ (cols rows r).length := by
    rw [hr'c]
    rcases hroom with h3 | ⟨h2, _⟩
    · have := h3 r' hr'm; omega
    · exact h2 r' hr'm
  obtain ⟨y, hy, hyc⟩ := other_of_length (cols_nodup h r) hcr h2
  have hyw : tw.abs.wt y ≠ 0 := by rw [hi.wt y]; exact unset_pos hr hy hrs
  obtain ⟨d1, L1, e1, c1, l1, m1, w1⟩ := pop_core hrep.toCore hrep.last g4 hyc ⟨_, hrep.live y hyw⟩
  have hn1 : ∀ v, c ∉ L1 v := fun v hv => ((m1 c v).mp hv).1 rfl
  have hwt : (fun x => ((d1.setWeight c 0).nodes x).weight) = Function.update tw.abs.wt c 0 := by
    funext x
    rw [setWeight_weight]
    by_cases e : x = c
    · subst e; simp
    · rw [Function.update_of_ne e, Function.update_of_ne e]; exact w1 x
  have hrep1 : Rep S (d1.setWeight c 0) L1 := by
    refine ⟨setWeight_core c1 hn1, ?_, l1⟩
    intro x hx
    have hx1 : ((d1.setWeight c 0).nodes x).weight = _ := congrFun hwt x
    by_cases e : x = c
    · subst e; rw [hx1, Function.update_self] at hx; exact absurd rfl hx
    · rw [Function.update_of_ne e] at hx1
      rw [hx1] at hx ⊢
      exact (m1 x _).mpr ⟨e, hrep.live x hx⟩
  have hidle1 : Idle rows S L1 := by
    intro z hz hzr
    obtain ⟨v, hv⟩ := hidle z hz hzr
    refine ⟨v, (m1 z v).mpr ⟨?_, hv⟩⟩
    rintro rfl
    have := hi.wt z
    rw [unset_idle hzr] at this
    exact g3 this
  have hfold := visitW_fold h hroom (colRows rows c) (fun r hr => mem_colRows.mp hr)
    (sw := ({ tw with wd := d1.setWeight c 0 }, true)) (mid_start hi c)
    ⟨L1, hrep1, hidle1, by unfold TriW.abs at hwt ⊢; dsimp only at hwt ⊢; rw [hwt]⟩ rfl
  unfold colStepW colStep
  rw [g1]
  show Sim (RelW S rows) (tw.wd.pop c >>= _) _
  rw [e1]
  show Sim (RelW S rows) ((List.foldlM (visitW rows c) ({ tw with wd := d1.setWeight c 0 }, true) (colRows rows c)) >>= _) _
  revert hfold
  generalize List.foldlM (visitW rows c) ({ tw with wd := d1.setWeight c 0 }, true) (colRows rows c) = A
  generalize List.foldlM (visit rows c) ({ tw.abs with wt := Function.update tw.abs.wt c 0 }, true) (colRows rows c) = B
  intro hfold
  cases A with
  | error e =>
    cases B with
    | error e' => exact hfold
    | ok b => exact hfold.elim
  | ok a =>
    cases B with
    | error e' => exact hfold.elim
    | ok b =>
      obtain ⟨h1, h2⟩ := hfold
      simp only [bind, Except.bind]
      rw [h2]
      by_cases hf : b.2 = true
      · rw [if_pos hf, if_pos hf]; rfl
      · rw [if_neg hf, if_neg hf]; exact h1

/-! ## The choice as a function of the state -/

theorem visit_main {rows : List Row} {c : Nat} {s s' : Tri × Bool} {r : Nat} (hv : visit rows c s r = .ok s') :
    s.1.main.length + (if s.2 = true ∧ s'.2 = false then 1 else 0) ≤ s'.1.main.length ∧ (s.2 = false → s'.2 = false) := by
  unfold visit at hv
  split at hv
  · cases hv; refine ⟨?_, id⟩; cases s.2 <;> simp
  · dsimp only at hv
    split at hv
    · cases hv; rename_i h1; refine ⟨?_, fun _ => rfl⟩; simp [h1]
    · split at hv
      · cases hv
      · cases hv; rename_i h1 _; refine ⟨?_, fun _ => rfl⟩; simp [h1]

theorem fold_main {rows : List Row} {c : Nat} (l : List Nat) {s s' : Tri × Bool}
    (hv : l.foldlM (visit rows c) s = .ok s') :
    s.1.main.length + (if s.2 = true ∧ s'.2 = false then 1 else 0) ≤ s'.1.main.length ∧ (s.2 = false → s'.2 = false) := by
  induction l generalizing s with
  | nil => cases hv; refine ⟨?_, id⟩; cases s'.2 <;> simp
  | cons a l ih =>
    rw [List.foldlM_cons] at hv
    cases h1 : visit rows c s a with
    | error e => rw [h1] at hv; cases hv
    | ok s1 =>
      rw [h1] at hv
      have a1 := visit_main h1
      have a2 := ih hv
      refine ⟨?_, fun hf => a2.2 (a1.2 hf)⟩
      have b1 := a1.1
      have b2 := a2.1
      revert b1 b2
      cases s.2 <;> cases s1.2 <;> cases s'.2 <;> simp <;> omega

theorem colStep_main {rows : List Row} {t t' : Tri} {c : Nat} (hv : colStep rows t c = .ok t') :
    t.main.length < t'.main.length := by
  unfold colStep at hv
  cases hf : (colRows rows c).foldlM (visit rows c) ({ t with wt := Function.update t.wt c 0 }, true) with
  | error e => rw [hf] at hv; cases hv
  | ok s =>
    rw [hf] at hv
    have h1 := (fold_main _ hf).1
    simp only [bind, Except.bind] at hv
    split at hv
    · cases hv
    · rename_i h2
      cases hv
      simp only [h2] at h1
      simp at h1
      omega

theorem triangulate_congr {rows : List Row} {S n : Nat} {p q : Tri → Nat} (hpq : ∀ t, n ≤ t.main.length → p t = q t)
    (fuel : Nat) {t : Tri} (ht : n ≤ t.main.length) : triangulate rows S p fuel t = triangulate rows S q fuel t := by
  induction fuel generalizing t with
  | zero => rfl
  | succ fuel ih =>
    unfold triangulate
    rw [hpq t ht]
    split
    · rfl
    · cases hc : colStep rows t (q t) with
      | error e => rfl
      | ok t' =>
        have := colStep_main hc
        exact ih (by omega)

/-- The choice is a column of least positive weight. -/
def PickMin (S : Nat) (pick : Tri → Nat) : Prop :=
  PickOk S pick ∧ ∀ (t : Tri) (c : Nat), c < S → t.wt c ≠ 0 → t.wt (pick t) ≤ t.wt c

theorem exists_min (S : Nat) (t : Tri) (hex : ∃ c < S, t.wt c ≠ 0) :
    ∃ m < S, t.wt m ≠ 0 ∧ ∀ c < S, t.wt c ≠ 0 → t.wt m ≤ t.wt c := by
  classical
  have hex' : ∃ w, ∃ c < S, t.wt c ≠ 0 ∧ t.wt c = w := by
    obtain ⟨c, h1, h2⟩ := hex
    exact ⟨_, c, h1, h2, rfl⟩
  obtain ⟨m, h1, h2, h3⟩ := Nat.find_spec hex'
  refine ⟨m, h1, h2, fun c hc h0 => ?_⟩
  rw [h3]
  exact Nat.find_min' hex' ⟨c, hc, h0, rfl⟩

theorem pickMin_exists (S : Nat) : ∃ pick, PickMin S pick := by
  classical
  refine ⟨fun t => if hex : ∃ c < S, t.wt c ≠ 0 then Classical.choose (exists_min S t hex) else 0, ?_, ?_⟩
  · intro t hex
    dsimp only
    rw [dif_pos hex]
    have := Classical.choose_spec (exists_min S t hex)
    exact ⟨this.1, this.2.1⟩
  · intro t c hc h0
    have hex : ∃ c < S, t.wt c ≠ 0 := ⟨c, hc, h0⟩
    dsimp only
    rw [dif_pos hex]
    exact (Classical.choose_spec (exists_min S t hex)).2.2 c hc h0

theorem sim_error {α β : Type} {R : α → β → Prop} {A : Except WErr α} {e : Err} (h : Sim R A (.error e)) :
    A = .error (.base e) := by
  cases A with
  | error e' => exact congrArg _ h
  | ok a => exact h.elim

theorem sim_ok {α β : Type} {R : α → β → Prop} {A : Except WErr α} {b : β} (h : Sim R A (.ok b)) :
    ∃ a, A = .ok a ∧ R a b := by
  cases A with
  | error e' => exact h.elim
  | ok a => exact ⟨a, rfl, h⟩

theorem live_lt {S c : Nat} {t t' : Tri} (hc : c < S) (h0 : t.wt c ≠ 0) (h1 : t'.wt c = 0)
    (hle : ∀ x, t'.wt x ≤ t.wt x) : live S t' < live S t := by
  have he : (List.range S).filter (fun c => t'.wt c ≠ 0) =
      ((List.range S).filter (fun c => t.wt c ≠ 0)).filter (fun c => t'.wt c ≠ 0) := by
    rw [List.filter_filter]
    apply List.filter_congr
    intro x _
    have := hle x
    by_cases e : t'.wt x = 0
    · simp [e]
    · simp [e]; omega
  unfold live
  rw [he]
  apply List.length_filter_lt_length_iff_exists.mpr
  refine ⟨c, ?_, by simp [h1]⟩
  rw [List.mem_filter, List.mem_range]
  exact ⟨hc, by simpa using h0⟩

theorem loopW_sim {S : Nat} {rows : List Row} (h : RowsOk rows S) (hroom : Room rows S) (fuel : Nat) {tw : TriW} {t : Tri}
    (hi : Inv rows t) (hrel : RelW S rows tw t) (hf : live S t ≤ fuel) :
    ∃ pick, PickMin S pick ∧ Sim (RelW S rows) (loopW rows fuel tw) (triangulate rows S pick fuel t) := by
  induction fuel generalizing tw t with
  | zero =>
    obtain ⟨pick, hp⟩ := pickMin_exists S
    refine ⟨pick, hp, ?_⟩
    have hz : ∀ c < S, t.wt c = 0 := by
      intro c hc
      have h0 : live S t = 0 := by omega
      unfold live at h0
      rw [List.length_eq_zero_iff, List.filter_eq_nil_iff] at h0
      simpa using h0 c (List.mem_range.mpr hc)
    obtain ⟨L, hrep, hidle, habs⟩ := hrel
    have hl : ¬ tw.wd.len > 1 := by
      rw [len_iff hrep]
      intro hn; apply hn
      intro c hc
      have := hz c hc
      rw [← habs] at this
      exact this
    unfold loopW triangulate
    rw [if_neg hl]
    exact ⟨L, hrep, hidle, habs⟩
  | succ fuel ih =>
    obtain ⟨L, hrep, hidle, habs⟩ := hrel
    have hl : tw.wd.len > 1 ↔ ¬ ∀ c < S, t.wt c = 0 := by
      rw [len_iff hrep, ← habs]; rfl
    by_cases hz : ∀ c < S, t.wt c = 0
    · obtain ⟨pick, hp⟩ := pickMin_exists S
      refine ⟨pick, hp, ?_⟩
      unfold loopW triangulate
      rw [if_pos hz, if_neg (fun hh => (hl.mp hh) hz)]
      exact ⟨L, hrep, hidle, habs⟩
    · have hlen := hl.mpr hz
      obtain ⟨c, c1, c2, c3, c4⟩ := colStepW_sim h hroom hi ⟨L, hrep, hidle, habs⟩ hlen
      -- the choice at `t` is `c`; later choices come from the induction
      have build : ∀ q, PickMin S q → ∃ p, PickMin S p ∧ p t = c ∧ ∀ t', t.main.length + 1 ≤ t'.main.length → p t' = q t' := by
        classical
        intro q hq
        refine ⟨fun t' => if t' = t then c else q t', ⟨?_, ?_⟩, if_pos rfl, ?_⟩
        · intro t' hex
          dsimp only
          by_cases e : t' = t
          · rw [if_pos e, e]; exact ⟨c1, c2⟩
          · rw [if_neg e]; exact hq.1 t' hex
        · intro t' x hx h0
          dsimp only
          by_cases e : t' = t
          · rw [if_pos e, e]; rw [e] at h0; exact c3 x h0
          · rw [if_neg e]; exact hq.2 t' x hx h0
        · intro t' ht'
          exact if_neg (by rintro rfl; omega)
      have hpos : 0 < t.wt c := Nat.pos_of_ne_zero c2
      rcases colStep_inv h hi hpos with ⟨t', h1, h2, h3, h4⟩ | herr
      · rw [h1] at c4
        obtain ⟨tw', hw, hrel'⟩ := sim_ok c4
        have hlive : live S t' ≤ fuel := by
          have := live_lt c1 c2 h3 h4
          omega
        obtain ⟨q, hq, hsim⟩ := ih h2 hrel' hlive
        obtain ⟨p, hp, hpt, hpq⟩ := build q hq
        refine ⟨p, hp, ?_⟩
        unfold loopW triangulate
        rw [if_neg hz, if_pos hlen, hpt, h1, hw]
        show Sim (RelW S rows) (loopW rows fuel tw') (triangulate rows S p fuel t')
        rw [triangulate_congr hpq fuel (colStep_main h1)]
        exact hsim
      · rw [herr] at c4
        have hw := sim_error c4
        obtain ⟨q, hq⟩ := pickMin_exists S
        obtain ⟨p, hp, hpt, _⟩ := build q hq
        refine ⟨p, hp, ?_⟩
        unfold loopW triangulate
        rw [if_neg hz, if_pos hlen, hpt, herr, hw]
        rfl

/-- The triangulation with the linked lists is the triangulation with some choice of least columns. -/
theorem triW_refines {S : Nat} {rows : List Row} (h : RowsOk rows S) (hroom : Room rows S) (h0 : 0 < S)
    (hheavy : ∀ c < S, (colRows rows c).length < 200) :
    ∃ pick, PickMin S pick ∧ triangulateW rows S = liftErr (triangulate rows S pick S (Tri.init rows)) := by
  obtain ⟨d, L, i1, i2, i3, i4⟩ := init_ok (fun c => (colRows rows c).length) h0 hheavy
  have hout : ∀ c, ¬ c < S → (colRows rows c).length = 0 := by
    intro c hc
    refine (init_wt h c).trans (unset_zero_of ?_)
    intro r _ hcr
    exact absurd (cols_lt h hcr) hc
  have habs : TriW.abs ⟨d, fun _ => false, [], []⟩ = Tri.init rows := by
    unfold TriW.abs Tri.init
    congr 1
    funext c
    dsimp only
    rw [i3]
    split
    · rfl
    · rename_i hc; exact (hout c hc).symm
  obtain ⟨pick, hp, hsim⟩ := loopW_sim h hroom S (inv_init h) ⟨L, i2, fun z hz _ => i4 z hz, habs⟩ (live_le S _)
  refine ⟨pick, hp, ?_⟩
  unfold triangulateW
  rw [i1]
  show (loopW rows S ⟨d, fun _ => false, [], []⟩ >>= fun t => Except.ok t.abs) = _
  cases ht : triangulate rows S pick S (Tri.init rows) with
  | error e => rw [ht] at hsim; rw [sim_error hsim]; rfl
  | ok t =>
    rw [ht] at hsim
    obtain ⟨tw, e1, _, _, _, e2⟩ := sim_ok hsim
    rw [e1]
    show Except.ok tw.abs = _
    rw [e2]; rfl

end Psi.Okvs
