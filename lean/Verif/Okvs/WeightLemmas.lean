import Verif.Okvs.Weight
import Verif.Okvs.TriLemmas

/-! # The linked lists stand for one list of columns per weight -/

namespace Psi.Okvs

/-- `L w` is the list for weight `w`. -/
structure Core (S : Nat) (d : WData) (L : Nat → List Nat) : Prop where
  hd : ∀ w < d.len, d.heads w = (L w).head?
  out : ∀ w, d.len ≤ w → L w = []
  nodup : ∀ w, (L w).Nodup
  mem : ∀ w c, c ∈ L w → (d.nodes c).weight = w ∧ c < S
  link : ∀ w a c b, L w = a ++ c :: b → (d.nodes c).prev = a.getLast? ∧ (d.nodes c).next = b.head?
  free : ∀ c, (∀ w, c ∉ L w) → (d.nodes c).prev = none ∧ (d.nodes c).next = none

/-- The column is in one of the lists. -/
def In (L : Nat → List Nat) (c : Nat) : Prop := ∃ w, c ∈ L w

structure Rep (S : Nat) (d : WData) (L : Nat → List Nat) : Prop extends Core S d L where
  live : ∀ c, (d.nodes c).weight ≠ 0 → c ∈ L (d.nodes c).weight
  last : d.len ≠ 0 → L (d.len - 1) ≠ []

theorem front_core {S : Nat} {d : WData} {L : Nat → List Nat} {c w : Nat} (h : Core S d L) (hc : c < S)
    (hw : (d.nodes c).weight = w) (hl : w < d.len) (hn : ∀ v, c ∉ L v) :
    ∃ d', d.front w c = .ok d' ∧ Core S d' (Function.update L w (c :: L w)) ∧ d'.len = d.len ∧
      ∀ x, (d'.nodes x).weight = (d.nodes x).weight := by
  obtain ⟨hp, hx⟩ := h.free c hn
  unfold WData.front
  rw [h.hd w hl]
  cases hL : L w with
  | nil =>
    refine ⟨_, rfl, ⟨?_, ?_, ?_, ?_, ?_, ?_⟩, rfl, fun _ => rfl⟩
    · intro v hv
      by_cases e : v = w
      · subst e; simp [WData.setHead]
      · simp only [WData.setHead, Function.update_of_ne e]; exact h.hd v hv
    · intro v hv
      have e : v ≠ w := by rintro rfl; exact absurd hl (by simpa [WData.setHead] using hv)
      rw [Function.update_of_ne e]; exact h.out v hv
    · intro v
      by_cases e : v = w
      · subst e; simp
      · rw [Function.update_of_ne e]; exact h.nodup v
    · intro v x hx'
      by_cases e : v = w
      · subst e; simp at hx'; subst hx'; exact ⟨hw, hc⟩
      · rw [Function.update_of_ne e] at hx'; exact h.mem v x hx'
    · intro v a x b hab
      by_cases e : v = w
      · subst e
        rw [Function.update_self] at hab
        cases a with
        | nil => simp at hab; obtain ⟨rfl, rfl⟩ := hab; simpa [WData.setHead] using ⟨hp, hx⟩
        | cons _ _ => simp at hab
      · rw [Function.update_of_ne e] at hab; exact h.link v a x b hab
    · intro x hx'
      apply h.free x
      intro v hv
      by_cases e : v = w
      · subst e; rw [hL] at hv; cases hv
      · apply hx' v; rw [Function.update_of_ne e]; exact hv
  | cons y t =>
    have hy := h.link w [] y t hL
    have hyw := h.mem w y (by rw [hL]; exact List.mem_cons_self)
    have hcy : c ≠ y := by rintro rfl; exact hn w (by rw [hL]; exact List.mem_cons_self)
    simp only [List.head?_cons]
    rw [if_neg (by simp [hy.1])]
    have hnode : ∀ x, ((((d.setPrev y (some c)).setNext c (some y)).setHead w (some c)).nodes x) =
        if x = c then { d.nodes c with next := some y } else if x = y then { d.nodes y with prev := some c }
        else d.nodes x := by
      intro x
      simp only [WData.setHead, WData.setNext, WData.setPrev]
      by_cases e : x = c
      · subst e; rw [Function.update_self, Function.update_of_ne hcy]; simp
      · rw [Function.update_of_ne e, if_neg e]
        by_cases e2 : x = y
        · subst e2; simp
        · rw [Function.update_of_ne e2, if_neg e2]
    have hwt : ∀ x, ((((d.setPrev y (some c)).setNext c (some y)).setHead w (some c)).nodes x).weight =
        (d.nodes x).weight := by
      intro x; rw [hnode]; split
      · rename_i e; rw [e]
      · split
        · rename_i e; rw [e]
        · rfl
    refine ⟨_, rfl, ⟨?_, ?_, ?_, ?_, ?_, ?_⟩, rfl, hwt⟩
    · intro v hv
      by_cases e : v = w
      · subst e; simp [WData.setHead]
      · simp only [WData.setHead, WData.setNext, WData.setPrev, Function.update_of_ne e]; exact h.hd v hv
    · intro v hv
      have e : v ≠ w := by
        rintro rfl; simp only [WData.setHead, WData.setNext, WData.setPrev] at hv; omega
      rw [Function.update_of_ne e]; exact h.out v hv
    · intro v
      by_cases e : v = w
      · subst e; rw [Function.update_self, List.nodup_cons, ← hL]; exact ⟨hn v, h.nodup v⟩
      · rw [Function.update_of_ne e]; exact h.nodup v
    · intro v x hx'
      rw [hwt]
      by_cases e : v = w
      · subst e
        rw [Function.update_self] at hx'
        rcases List.mem_cons.mp hx' with rfl | hx'
        · exact ⟨hw, hc⟩
        · exact h.mem v x (by rw [hL]; exact hx')
      · rw [Function.update_of_ne e] at hx'; exact h.mem v x hx'
    · intro v a x b hab
      rw [hnode]
      by_cases e : v = w
      · subst e
        rw [Function.update_self] at hab
        cases a with
        | nil =>
          simp only [List.nil_append, List.cons.injEq] at hab
          obtain ⟨rfl, rfl⟩ := hab
          rw [if_pos rfl]; exact ⟨hp, rfl⟩
        | cons z a' =>
          simp only [List.cons_append, List.cons.injEq] at hab
          obtain ⟨rfl, hab⟩ := hab
          have hxL : x ∈ L v := by rw [hL, hab]; simp
          have hxc : x ≠ c := by rintro rfl; exact hn v hxL
          rw [if_neg hxc]
          have ho := h.link v a' x b (hL.trans hab)
          cases a' with
          | nil =>
            simp only [List.nil_append, List.cons.injEq] at hab
            obtain ⟨rfl, rfl⟩ := hab
            rw [if_pos rfl]; exact ⟨rfl, ho.2⟩
          | cons q a'' =>
            simp only [List.cons_append, List.cons.injEq] at hab
            obtain ⟨rfl, hab⟩ := hab
            have hxy : x ≠ y := by
              rintro rfl
              have hnd := h.nodup v
              rw [hL, hab] at hnd
              simp at hnd
            rw [if_neg hxy]
            refine ⟨?_, ho.2⟩
            rw [ho.1]; simp
      · rw [Function.update_of_ne e] at hab
        have hxL : x ∈ L v := by rw [hab]; simp
        have hxc : x ≠ c := by rintro rfl; exact hn v hxL
        have hxy : x ≠ y := by
          rintro rfl; exact e ((h.mem v x hxL).1.symm.trans hyw.1)
        rw [if_neg hxc, if_neg hxy]
        exact h.link v a x b hab
    · intro x hx'
      have hxc : x ≠ c := by rintro rfl; exact hx' w (by simp)
      have hxy : x ≠ y := by rintro rfl; exact hx' w (by simp)
      rw [hnode, if_neg hxc, if_neg hxy]
      apply h.free x
      intro v hv
      apply hx' v
      by_cases e : v = w
      · subst e; rw [Function.update_self, ← hL]; exact List.mem_cons_of_mem _ hv
      · rw [Function.update_of_ne e]; exact hv

theorem trimLen_spec (heads : Nat → Option Nat) (n : Nat) :
    trimLen heads n ≤ n ∧ (∀ v, trimLen heads n ≤ v → v < n → heads v = none) ∧
      (trimLen heads n ≠ 0 → heads (trimLen heads n - 1) ≠ none) := by
  induction n with
  | zero => simp [trimLen]
  | succ n ih =>
    unfold trimLen
    split
    · rename_i h
      refine ⟨by omega, ?_, ih.2.2⟩
      intro v h1 h2
      by_cases e : v = n
      · subst e; exact h
      · exact ih.2.1 v h1 (by omega)
    · rename_i h
      exact ⟨Nat.le_refl _, fun v h1 h2 => by omega, fun _ => by simpa using h⟩

/-- The nodes after `PopNode`; `a` and `b` are what stands before and behind the column. -/
def popNodes (nodes : Nat → WNode) (a b : List Nat) (c : Nat) : Nat → WNode := fun y =>
  if y = c then { nodes c with prev := none, next := none }
  else if a.getLast? = some y then { nodes y with next := b.head? }
  else if b.head? = some y then { nodes y with prev := a.getLast? }
  else nodes y

theorem popNodes_weight (nodes : Nat → WNode) (a b : List Nat) (c x : Nat) :
    (popNodes nodes a b c x).weight = (nodes x).weight := by
  unfold popNodes
  split
  · rename_i e; rw [e]
  · split
    · rfl
    · split <;> rfl

/-- What `PopNode` does to a column of a list. -/
theorem pop_eq {S : Nat} {d : WData} {L : Nat → List Nat} {c w : Nat} (h : Core S d L) {a b : List Nat}
    (hL : L w = a ++ c :: b) :
    d.pop c = (if a ++ b = [] ∧ trimLen (Function.update d.heads w none) d.len = 0 then .error .undefined
      else .ok ⟨if a ++ b = [] then trimLen (Function.update d.heads w none) d.len else d.len,
        Function.update d.heads w (a ++ b).head?, popNodes d.nodes a b c⟩) := by
  have hcL : c ∈ L w := by rw [hL]; simp
  have hw := (h.mem w c hcL).1
  have hnd := h.nodup w
  rw [hL] at hnd
  have hlen : w < d.len := by
    apply Classical.byContradiction
    intro hn
    have := h.out w (by omega)
    rw [this] at hcL; cases hcL
  obtain ⟨hp, hx⟩ := h.link w a c b hL
  have hh := h.hd w hlen
  unfold WData.pop
  simp only [hp, hx, hw]
  rcases List.eq_nil_or_concat a with rfl | ⟨a', p, rfl⟩
  · -- the first of its list
    have hhc : d.heads w = some c := by rw [hh, hL]; rfl
    simp only [List.getLast?_nil, List.nil_append]
    rw [if_neg (by omega), if_neg (by simp [hhc])]
    cases b with
    | nil =>
      simp only [List.head?_nil, true_and, WData.setHead, if_true]
      by_cases hk : trimLen (Function.update d.heads w none) d.len = 0
      · rw [if_pos hk]; exact if_pos hk
      · rw [if_neg hk]
        refine (if_neg hk).trans ?_
        simp only [bind, Except.bind, WData.setPrev, WData.setNext, Except.ok.injEq, WData.mk.injEq, true_and]
        funext y
        unfold popNodes
        by_cases e : y = c
        · subst e; simp
        · simp [e]
    | cons x b' =>
      have hcx : x ≠ c := by rintro rfl; simp at hnd
      simp only [List.head?_cons, reduceCtorEq, false_and, if_false]
      simp only [bind, Except.bind, WData.setPrev, WData.setNext, WData.setHead, Except.ok.injEq, WData.mk.injEq,
        true_and]
      funext y
      unfold popNodes
      by_cases e : y = c
      · subst e; simp [Function.update_of_ne hcx.symm]
      · rw [Function.update_of_ne e, Function.update_of_ne e, if_neg e]
        by_cases e2 : y = x
        · subst e2; simp
        · rw [Function.update_of_ne e2]
          simp [Ne.symm e2]
  · have hcp : p ≠ c := by
      rintro rfl
      simp [List.nodup_append] at hnd
    simp only [List.concat_eq_append] at hL hnd hh ⊢
    have hhead : (a' ++ [p] ++ b).head? = d.heads w := by
      rw [hh, hL]; cases a' <;> simp
    have hne : a' ++ [p] ++ b ≠ [] := by simp
    rw [hhead, Function.update_eq_self, if_neg (c := a' ++ [p] ++ b = [] ∧ _) (fun hh => hne hh.1),
      if_neg (c := a' ++ [p] ++ b = []) hne]
    simp only [List.getLast?_append, List.getLast?_singleton, Option.some_or]
    cases b with
    | nil =>
      simp only [List.head?_nil, bind, Except.bind, WData.setPrev, WData.setNext, Except.ok.injEq, WData.mk.injEq,
        true_and]
      funext y
      unfold popNodes
      by_cases e : y = c
      · subst e; simp [Function.update_of_ne hcp.symm]
      · rw [Function.update_of_ne e, Function.update_of_ne e, if_neg e]
        by_cases e2 : y = p
        · subst e2; simp
        · rw [Function.update_of_ne e2]
          simp [Ne.symm e2]
    | cons x b' =>
      have hcx : x ≠ c := by rintro rfl; simp [List.nodup_append] at hnd
      have hpx : p ≠ x := by rintro rfl; simp [List.nodup_append] at hnd
      simp only [List.head?_cons, bind, Except.bind, WData.setPrev, WData.setNext, Except.ok.injEq, WData.mk.injEq,
        true_and]
      funext y
      unfold popNodes
      by_cases e : y = c
      · subst e; simp [Function.update_of_ne hcp.symm, Function.update_of_ne hcx.symm]
      · rw [Function.update_of_ne e, Function.update_of_ne e, if_neg e]
        by_cases e2 : y = p
        · subst e2; rw [Function.update_of_ne hpx]; simp
        · by_cases e3 : y = x
          · subst e3; rw [Function.update_self, Function.update_of_ne hpx.symm]; simp [hpx]
          · rw [Function.update_of_ne e3, Function.update_of_ne e2]
            simp [Ne.symm e2, Ne.symm e3]

theorem getLast?_mem {a : List Nat} {x : Nat} (h : a.getLast? = some x) : x ∈ a := List.mem_of_getLast? h

theorem head?_mem {a : List Nat} {x : Nat} (h : a.head? = some x) : x ∈ a := List.mem_of_head? h

theorem popNodes_other (nodes : Nat → WNode) {a b : List Nat} {c x : Nat} (hc : x ≠ c) (ha : x ∉ a) (hb : x ∉ b) :
    popNodes nodes a b c x = nodes x := by
  unfold popNodes
  rw [if_neg hc, if_neg (fun h => ha (getLast?_mem h)), if_neg (fun h => hb (head?_mem h))]

theorem pop_core {S : Nat} {d : WData} {L : Nat → List Nat} {c w : Nat} (h : Core S d L)
    (hlast : d.len ≠ 0 → L (d.len - 1) ≠ []) (hcL : c ∈ L w) {y : Nat} (hyc : y ≠ c) (hy : In L y) :
    ∃ d' L', d.pop c = .ok d' ∧ Core S d' L' ∧ (d'.len ≠ 0 → L' (d'.len - 1) ≠ []) ∧
      (∀ x v, x ∈ L' v ↔ x ≠ c ∧ x ∈ L v) ∧ ∀ x, (d'.nodes x).weight = (d.nodes x).weight := by
  obtain ⟨a, b, hL⟩ := List.append_of_mem hcL
  have hw := (h.mem w c hcL).1
  have hnd := h.nodup w
  rw [hL] at hnd
  have hca : c ∉ a := by
    intro hh; rw [List.nodup_append] at hnd; exact hnd.2.2 c hh c List.mem_cons_self rfl
  have hcb : c ∉ b := by
    rw [List.nodup_append] at hnd; exact (List.nodup_cons.mp hnd.2.1).1
  have hab : ∀ x ∈ a, x ∉ b := by
    intro x hx hxb; rw [List.nodup_append] at hnd; exact hnd.2.2 x hx x (List.mem_cons_of_mem _ hxb) rfl
  have hnab : (a ++ b).Nodup := by
    rw [List.nodup_append] at hnd ⊢
    exact ⟨hnd.1, (List.nodup_cons.mp hnd.2.1).2, fun x hx z hz => hnd.2.2 x hx z (List.mem_cons_of_mem _ hz)⟩
  have hlen : w < d.len := by
    apply Classical.byContradiction
    intro hn
    have := h.out w (by omega)
    rw [this] at hcL; cases hcL
  have hmemw : ∀ x, x ∈ L w ↔ x = c ∨ x ∈ a ++ b := by
    intro x; rw [hL]; simp only [List.mem_append, List.mem_cons]; tauto
  have hmem : ∀ x v, x ∈ Function.update L w (a ++ b) v ↔ x ≠ c ∧ x ∈ L v := by
    intro x v
    by_cases e : v = w
    · subst e
      rw [Function.update_self, hmemw]
      constructor
      · intro hx
        refine ⟨?_, Or.inr hx⟩
        rintro rfl
        rcases List.mem_append.mp hx with hx | hx
        · exact hca hx
        · exact hcb hx
      · rintro ⟨h1, h2⟩; exact h2.resolve_left h1
    · rw [Function.update_of_ne e]
      constructor
      · intro hx
        refine ⟨?_, hx⟩
        rintro rfl
        exact e ((h.mem v x hx).1.symm.trans hw)
      · exact fun hx => hx.2
  obtain ⟨u, hyu⟩ := hy
  have hlu : u < d.len := by
    apply Classical.byContradiction
    intro hn
    have := h.out u (by omega)
    rw [this] at hyu; cases hyu
  have hhd : ∀ v < d.len, Function.update d.heads w (a ++ b).head? v = (Function.update L w (a ++ b) v).head? := by
    intro v hv
    by_cases e : v = w
    · subst e; simp
    · rw [Function.update_of_ne e, Function.update_of_ne e]; exact h.hd v hv
  have hk : ¬ (a ++ b = [] ∧ trimLen (Function.update d.heads w none) d.len = 0) := by
    rintro ⟨h1, h2⟩
    have h3 := (trimLen_spec (Function.update d.heads w none) d.len).2.1 u (by omega) hlu
    have h4 := hhd u hlu
    rw [h1] at h4
    simp only [List.head?_nil] at h4
    rw [h3] at h4
    have h5 : y ∈ Function.update L w [] u := by
      have := (hmem y u).mpr ⟨hyc, hyu⟩
      rwa [h1] at this
    rw [List.head?_eq_none_iff.mp h4.symm] at h5
    cases h5
  rw [pop_eq h hL, if_neg hk]
  refine ⟨_, Function.update L w (a ++ b), rfl, ⟨?_, ?_, ?_, ?_, ?_, ?_⟩, ?_, hmem, popNodes_weight _ _ _ _⟩
  · intro v hv
    dsimp only at hv ⊢
    apply hhd
    split at hv
    · have := (trimLen_spec (Function.update d.heads w none) d.len).1; omega
    · exact hv
  · intro v hv
    dsimp only at hv
    by_cases hvl : d.len ≤ v
    · rw [Function.update_of_ne (by omega)]; exact h.out v hvl
    · split at hv
      · rename_i h1
        have h3 := (trimLen_spec (Function.update d.heads w none) d.len).2.1 v hv (by omega)
        have h4 := hhd v (by omega)
        rw [h1] at h4 ⊢
        simp only [List.head?_nil] at h4
        rw [h3] at h4
        exact List.head?_eq_none_iff.mp h4.symm
      · exact absurd hv hvl
  · intro v
    by_cases e : v = w
    · subst e; rw [Function.update_self]; exact hnab
    · rw [Function.update_of_ne e]; exact h.nodup v
  · intro v x hx
    dsimp only
    rw [popNodes_weight]
    exact h.mem v x ((hmem x v).mp hx).2
  · intro v a2 x b2 heq
    dsimp only
    have hxm : x ∈ Function.update L w (a ++ b) v := by rw [heq]; simp
    obtain ⟨hxc, hxL⟩ := (hmem x v).mp hxm
    by_cases e : v = w
    · subst e
      rw [Function.update_self] at heq
      have case1 : ∀ as, a2 = a ++ as → b = as ++ x :: b2 →
          (popNodes d.nodes a b c x).prev = a2.getLast? ∧ (popNodes d.nodes a b c x).next = b2.head? := by
        rintro as rfl rfl
        have hxa : x ∉ a := fun hx => hab x hx (by simp)
        have ho := h.link v (a ++ c :: as) x b2 (by rw [hL]; simp)
        unfold popNodes
        rw [if_neg hxc, if_neg (fun hh => hxa (getLast?_mem hh))]
        cases as with
        | nil => simp [ho.2]
        | cons q as' =>
          have hqx : q ≠ x := by
            rintro rfl
            rw [List.nodup_append] at hnd
            have := (List.nodup_cons.mp hnd.2.1).2
            simp at this
          rw [if_neg (by simp [hqx])]
          refine ⟨?_, ho.2⟩
          rw [ho.1]; simp [List.getLast?_append, List.getLast?_cons]
      rcases List.append_eq_append_iff.mp heq with ⟨as, h1, h2⟩ | ⟨bs, h1, h2⟩
      · exact case1 as h1 h2
      · cases bs with
        | nil => exact case1 [] (by simpa using h1.symm) (by simpa using h2.symm)
        | cons q bs' =>
          simp only [List.cons_append, List.cons.injEq] at h2
          obtain ⟨rfl, rfl⟩ := h2
          subst h1
          have hxb : x ∉ b := hab x (by simp)
          have ho := h.link v a2 x (bs' ++ c :: b) (by rw [hL]; simp)
          unfold popNodes
          rw [if_neg hxc]
          rcases List.eq_nil_or_concat bs' with rfl | ⟨bs'', q, rfl⟩
          · simp [ho.1]
          · have hqx : q ≠ x := by
              rintro rfl
              rw [List.nodup_append] at hnd
              simp [List.nodup_append] at hnd
            rw [if_neg (by simp [List.getLast?_append, List.getLast?_cons, hqx]),
              if_neg (fun hh => hxb (head?_mem hh))]
            refine ⟨ho.1, ?_⟩
            rw [ho.2]; cases bs'' <;> simp
    · rw [Function.update_of_ne e] at heq
      have hxw : x ∉ L w := fun hx => e ((h.mem v x hxL).1.symm.trans (h.mem w x hx).1)
      have hxab : x ∉ a ++ b := fun hx => hxw ((hmemw x).mpr (Or.inr hx))
      rw [List.mem_append, not_or] at hxab
      rw [popNodes_other _ hxc hxab.1 hxab.2]
      exact h.link v a2 x b2 heq
  · intro x hx
    dsimp only
    by_cases e : x = c
    · subst e; unfold popNodes; simp
    · have hxL : ∀ v, x ∉ L v := fun v hv => hx v ((hmem x v).mpr ⟨e, hv⟩)
      have hxab : x ∉ a ++ b := fun hx => hxL w ((hmemw x).mpr (Or.inr hx))
      rw [List.mem_append, not_or] at hxab
      rw [popNodes_other _ e hxab.1 hxab.2]
      exact h.free x hxL
  · dsimp only
    intro h0
    split at h0
    · rename_i h1
      rw [if_pos h1]
      have h2 := (trimLen_spec (Function.update d.heads w none) d.len)
      have h3 := h2.2.2 h0
      have h4 := hhd (trimLen (Function.update d.heads w none) d.len - 1) (by omega)
      rw [h1] at h4 ⊢
      simp only [List.head?_nil] at h4
      rw [h4] at h3
      intro hn
      rw [hn] at h3
      exact h3 rfl
    · rename_i h1
      rw [if_neg h1]
      by_cases e : d.len - 1 = w
      · rw [e, Function.update_self]; exact h1
      · rw [Function.update_of_ne e]; exact hlast h0

/-- A column outside the lists may change its weight. -/
theorem setWeight_core {S : Nat} {d : WData} {L : Nat → List Nat} {c k : Nat} (h : Core S d L) (hc : ∀ v, c ∉ L v) :
    Core S (d.setWeight c k) L := by
  have hne : ∀ v x, x ∈ L v → x ≠ c := by rintro v x hx rfl; exact hc v hx
  refine ⟨h.hd, h.out, h.nodup, ?_, ?_, ?_⟩
  · intro v x hx
    simp only [WData.setWeight, Function.update_of_ne (hne v x hx)]
    exact h.mem v x hx
  · intro v a x b heq
    have hx : x ∈ L v := by rw [heq]; simp
    simp only [WData.setWeight, Function.update_of_ne (hne v x hx)]
    exact h.link v a x b heq
  · intro x hx
    by_cases e : x = c
    · subst e; simpa [WData.setWeight] using h.free x hx
    · simp only [WData.setWeight, Function.update_of_ne e]; exact h.free x hx

theorem setWeight_weight (d : WData) (c k x : Nat) :
    ((d.setWeight c k).nodes x).weight = Function.update (fun y => (d.nodes y).weight) c k x := by
  by_cases e : x = c
  · subst e; simp [WData.setWeight]
  · simp [WData.setWeight, Function.update_of_ne e]

theorem grow_core {S : Nat} {d : WData} {L : Nat → List Nat} (h : Core S d L) (w : Nat) : Core S (d.grow w) L := by
  unfold WData.grow
  split
  · rename_i hl
    refine ⟨?_, fun v hv => h.out v (by dsimp only at hv; omega), h.nodup, h.mem, h.link, h.free⟩
    intro v hv
    dsimp only
    split
    · rename_i h1; exact h.hd v h1
    · rename_i h1; rw [h.out v (by omega)]; rfl
  · exact h

theorem push_core {S : Nat} {d : WData} {L : Nat → List Nat} {c : Nat} (h : Core S d L)
    (hlast : d.len ≠ 0 → L (d.len - 1) ≠ []) (hc : c < S) (hn : ∀ v, c ∉ L v) :
    ∃ d' L', d.push c = .ok d' ∧ Core S d' L' ∧ (d'.len ≠ 0 → L' (d'.len - 1) ≠ []) ∧
      (∀ x v, x ∈ L' v ↔ x ∈ L v ∨ (x = c ∧ v = (d.nodes c).weight)) ∧
      ∀ x, (d'.nodes x).weight = (d.nodes x).weight := by
  obtain ⟨h1, h2⟩ := h.free c hn
  have hgn : (d.grow (d.nodes c).weight).nodes = d.nodes := by unfold WData.grow; split <;> rfl
  have hgl : (d.nodes c).weight < (d.grow (d.nodes c).weight).len := by
    unfold WData.grow; split
    · exact Nat.lt_succ_self _
    · omega
  obtain ⟨d', e1, e2, e3, e4⟩ := front_core (grow_core h (d.nodes c).weight) hc (by rw [hgn]) hgl hn
  refine ⟨d', _, ?_, e2, ?_, ?_, ?_⟩
  · unfold WData.push; rw [if_neg (by simp [h1, h2])]; exact e1
  · intro _
    rw [e3]
    by_cases e : (d.grow (d.nodes c).weight).len - 1 = (d.nodes c).weight
    · rw [e, Function.update_self]; simp
    · rw [Function.update_of_ne e]
      have : (d.grow (d.nodes c).weight).len = d.len := by
        unfold WData.grow at e ⊢
        split
        · rename_i hl; rw [if_pos hl] at e; exact absurd rfl e
        · rfl
      rw [this] at hgl ⊢
      exact hlast (by omega)
  · intro x v
    by_cases e : v = (d.nodes c).weight
    · subst e; rw [Function.update_self, List.mem_cons]; tauto
    · rw [Function.update_of_ne e]; tauto
  · intro x; rw [e4, hgn]

theorem decW_ok {S : Nat} {d : WData} {L : Nat → List Nat} {c y : Nat} (h : Rep S d L) (hyc : y ≠ c) (hy : In L y) :
    ∃ d' L', decW d c = .ok d' ∧ Rep S d' L' ∧ (∀ x, In L' x ↔ In L x) ∧
      (fun x => (d'.nodes x).weight) = (if (d.nodes c).weight ≠ 0
        then Function.update (fun x => (d.nodes x).weight) c ((d.nodes c).weight - 1)
        else fun x => (d.nodes x).weight) := by
  unfold decW
  by_cases h0 : (d.nodes c).weight ≠ 0
  · rw [if_pos h0, if_pos h0]
    have hcL := h.live c h0
    have hcS := (h.mem _ _ hcL).2
    obtain ⟨d1, L1, e1, c1, l1, m1, w1⟩ := pop_core h.toCore h.last hcL hyc hy
    have hn1 : ∀ v, c ∉ L1 v := fun v hv => ((m1 c v).mp hv).1 rfl
    obtain ⟨d2, L2, e2, c2, l2, m2, w2⟩ :=
      push_core (setWeight_core (k := (d1.nodes c).weight - 1) c1 hn1) l1 hcS hn1
    have hwt : (fun x => (d2.nodes x).weight) =
        Function.update (fun x => (d.nodes x).weight) c ((d.nodes c).weight - 1) := by
      funext x
      rw [w2, setWeight_weight]
      by_cases e : x = c
      · subst e; simp [w1]
      · rw [Function.update_of_ne e, Function.update_of_ne e]; exact w1 x
    have hself : ((d1.setWeight c ((d1.nodes c).weight - 1)).nodes c).weight = (d2.nodes c).weight := (w2 c).symm
    refine ⟨d2, L2, ?_, ⟨c2, ?_, l2⟩, ?_, hwt⟩
    · rw [e1]; exact e2
    · intro x hx
      rw [m2]
      by_cases e : x = c
      · subst e; right; exact ⟨rfl, hself.symm⟩
      · left
        have hx2 : (d2.nodes x).weight = (d.nodes x).weight := by
          have := congrFun hwt x
          rw [Function.update_of_ne e] at this
          exact this
        rw [hx2] at hx ⊢
        exact (m1 x _).mpr ⟨e, h.live x hx⟩
    · intro x
      constructor
      · rintro ⟨v, hv⟩
        rcases (m2 x v).mp hv with hv | ⟨rfl, _⟩
        · exact ⟨v, ((m1 x v).mp hv).2⟩
        · exact ⟨_, hcL⟩
      · rintro ⟨v, hv⟩
        by_cases e : x = c
        · exact ⟨_, (m2 x _).mpr (Or.inr ⟨e, rfl⟩)⟩
        · exact ⟨v, (m2 x v).mpr (Or.inl ((m1 x v).mpr ⟨e, hv⟩))⟩
  · rw [if_neg h0, if_neg h0]
    exact ⟨d, L, rfl, h, fun _ => Iff.rfl, rfl⟩

theorem decs_ok {S : Nat} (cs : List Nat) {d : WData} {L : Nat → List Nat} {y1 y2 : Nat} (h : Rep S d L) (hne : y1 ≠ y2)
    (h1 : In L y1) (h2 : In L y2) :
    ∃ d' L', cs.foldlM decW d = .ok d' ∧ Rep S d' L' ∧ (∀ x, In L' x ↔ In L x) ∧
      (fun x => (d'.nodes x).weight) = decs cs (fun x => (d.nodes x).weight) := by
  induction cs generalizing d L with
  | nil => exact ⟨d, L, rfl, h, fun _ => Iff.rfl, rfl⟩
  | cons c cs ih =>
    have hy : ∃ y, y ≠ c ∧ In L y := by
      by_cases e : y1 = c
      · exact ⟨y2, fun e2 => hne (e.trans e2.symm), h2⟩
      · exact ⟨y1, e, h1⟩
    obtain ⟨y, hyc, hy⟩ := hy
    obtain ⟨d1, L1, e1, r1, i1, w1⟩ := decW_ok h hyc hy
    obtain ⟨d2, L2, e2, r2, i2, w2⟩ := ih r1 ((i1 _).mpr h1) ((i1 _).mpr h2)
    refine ⟨d2, L2, ?_, r2, fun x => (i2 x).trans (i1 x), ?_⟩
    · rw [List.foldlM_cons, e1]; exact e2
    · rw [w2, w1]; rfl

theorem getMin_ok {S : Nat} {d : WData} {L : Nat → List Nat} (h : Rep S d L) (hl : d.len > 1) :
    ∃ c, d.getMin = .ok c ∧ c < S ∧ (d.nodes c).weight ≠ 0 ∧ c ∈ L (d.nodes c).weight ∧
      ∀ x, (d.nodes x).weight ≠ 0 → (d.nodes c).weight ≤ (d.nodes x).weight := by
  unfold WData.getMin
  cases hf : (List.range' 1 (d.len - 1)).findSome? d.heads with
  | none =>
    exfalso
    rw [List.findSome?_eq_none_iff] at hf
    have h1 := hf (d.len - 1) (by rw [List.mem_range'_1]; omega)
    rw [h.hd _ (by omega), List.head?_eq_none_iff] at h1
    exact h.last (by omega) h1
  | some c =>
    rw [List.findSome?_eq_some_iff] at hf
    obtain ⟨l1, w, l2, h1, h2, h3⟩ := hf
    have hw : w ∈ List.range' 1 (d.len - 1) := by rw [h1]; simp
    rw [List.mem_range'_1] at hw
    have hwl : w < d.len := by omega
    rw [h.hd w hwl] at h2
    have hcL := head?_mem h2
    obtain ⟨m1, m2⟩ := h.mem w c hcL
    refine ⟨c, rfl, m2, by omega, by rw [m1]; exact hcL, ?_⟩
    intro x hx
    rw [m1]
    apply Classical.byContradiction
    intro hlt
    have hxL := h.live x hx
    have hpos : (d.nodes x).weight ∈ l1 := by
      have hmem : (d.nodes x).weight ∈ List.range' 1 (d.len - 1) := by rw [List.mem_range'_1]; omega
      have hsorted : (List.range' 1 (d.len - 1)).Pairwise (· < ·) := List.pairwise_lt_range'
      rw [h1] at hmem hsorted
      rcases List.mem_append.mp hmem with hm | hm
      · exact hm
      · rcases List.mem_cons.mp hm with hm | hm
        · omega
        · rw [List.pairwise_append] at hsorted
          have := (List.pairwise_cons.mp hsorted.2.1).1 _ hm
          omega
    have hnone := h3 _ hpos
    rw [h.hd _ (by omega), List.head?_eq_none_iff] at hnone
    rw [hnone] at hxL
    cases hxL

theorem len_iff {S : Nat} {d : WData} {L : Nat → List Nat} (h : Rep S d L) :
    d.len > 1 ↔ ¬ ∀ c < S, (d.nodes c).weight = 0 := by
  constructor
  · intro hl hz
    obtain ⟨c, _, h1, h2, _⟩ := getMin_ok h hl
    exact h2 (hz c h1)
  · intro hz
    apply Classical.byContradiction
    intro hl
    apply hz
    intro c _
    apply Classical.byContradiction
    intro h0
    have hcL := h.live c h0
    have := h.out (d.nodes c).weight (by omega)
    rw [this] at hcL
    cases hcL

/-! ## `init` -/

theorem add_fold {S : Nat} (wt : Nat → Nat) (hS : ∀ c < S, wt c < 200) (n : Nat) (hn : n ≤ S) :
    ∃ d L, (List.range n).foldlM (WData.add wt) ⟨200, fun _ => none, fun _ => ⟨0, none, none⟩⟩ = .ok d ∧
      Core S d L ∧ d.len = 200 ∧ (∀ x, (d.nodes x).weight = if x < n then wt x else 0) ∧
      ∀ x v, x ∈ L v ↔ x < n ∧ v = wt x := by
  induction n with
  | zero =>
    refine ⟨_, fun _ => [], rfl, ⟨fun _ _ => rfl, fun _ _ => rfl, fun _ => List.nodup_nil, ?_, ?_, ?_⟩, rfl, ?_, ?_⟩
    · intro v c hc; cases hc
    · intro v a c b hab; simp at hab
    · intro c _; exact ⟨rfl, rfl⟩
    · intro x; simp
    · intro x v; simp
  | succ n ih =>
    obtain ⟨d, L, h1, h2, h3, h4, h5⟩ := ih (by omega)
    have hnL : ∀ v, n ∉ L v := fun v hv => by have := (h5 n v).mp hv; omega
    have hcore : Core S { d with nodes := Function.update d.nodes n ⟨wt n, none, none⟩ } L := by
      have hne : ∀ v x, x ∈ L v → x ≠ n := by rintro v x hx rfl; exact hnL v hx
      refine ⟨h2.hd, h2.out, h2.nodup, ?_, ?_, ?_⟩
      · intro v x hx
        simp only [Function.update_of_ne (hne v x hx)]
        exact h2.mem v x hx
      · intro v a x b heq
        have hx : x ∈ L v := by rw [heq]; simp
        simp only [Function.update_of_ne (hne v x hx)]
        exact h2.link v a x b heq
      · intro x hx
        by_cases e : x = n
        · subst e; simp
        · simp only [Function.update_of_ne e]; exact h2.free x hx
    obtain ⟨d', e1, e2, e3, e4⟩ := front_core (c := n) (w := wt n) hcore (by omega) (by simp)
      (by dsimp only; rw [h3]; exact hS n (by omega)) hnL
    refine ⟨d', _, ?_, e2, by rw [e3]; exact h3, ?_, ?_⟩
    · rw [List.range_succ, List.foldlM_append, h1]
      show (List.foldlM (WData.add wt) d [n]) = _
      rw [List.foldlM_cons]
      unfold WData.add
      rw [if_neg (by rw [h3]; have := hS n (by omega); omega), e1]
      rfl
    · intro x
      rw [e4]
      by_cases e : x = n
      · subst e; simp
      · simp only [Function.update_of_ne e, h4]
        by_cases hx : x < n
        · rw [if_pos hx, if_pos (by omega)]
        · rw [if_neg hx, if_neg (by omega)]
    · intro x v
      by_cases e : v = wt n
      · subst e
        rw [Function.update_self, List.mem_cons, h5]
        constructor
        · rintro (rfl | ⟨a, b⟩)
          · exact ⟨by omega, rfl⟩
          · exact ⟨by omega, b⟩
        · rintro ⟨a, b⟩
          by_cases ex : x = n
          · exact Or.inl ex
          · exact Or.inr ⟨by omega, b⟩
      · rw [Function.update_of_ne e, h5]
        constructor
        · rintro ⟨a, b⟩; exact ⟨by omega, b⟩
        · rintro ⟨a, b⟩
          refine ⟨?_, b⟩
          by_cases ex : x = n
          · subst ex; exact absurd b e
          · omega

theorem init_ok {S : Nat} (wt : Nat → Nat) (h0 : 0 < S) (hS : ∀ c < S, wt c < 200) :
    ∃ d L, WData.init S wt = .ok d ∧ Rep S d L ∧ (∀ x, (d.nodes x).weight = if x < S then wt x else 0) ∧
      ∀ x < S, In L x := by
  obtain ⟨d, L, h1, h2, h3, h4, h5⟩ := add_fold wt hS S (Nat.le_refl S)
  have hsp := trimLen_spec d.heads d.len
  have h0L := (h5 0 (wt 0)).mpr ⟨h0, rfl⟩
  have hk : trimLen d.heads d.len ≠ 0 := by
    intro hk
    have hlt : wt 0 < d.len := by rw [h3]; exact hS 0 h0
    have := hsp.2.1 (wt 0) (by omega) hlt
    rw [h2.hd _ hlt, List.head?_eq_none_iff] at this
    rw [this] at h0L
    cases h0L
  refine ⟨{ d with len := trimLen d.heads d.len }, L, ?_, ⟨⟨?_, ?_, h2.nodup, h2.mem, h2.link, h2.free⟩, ?_, ?_⟩, h4, ?_⟩
  · unfold WData.init; rw [h1]
    show Except.ok (if trimLen d.heads d.len = 0 then d else { d with len := trimLen d.heads d.len }) = _
    rw [if_neg hk]
  · intro v hv; exact h2.hd v (by dsimp only at hv; omega)
  · intro v hv
    dsimp only at hv
    by_cases hl : v < d.len
    · have := hsp.2.1 v hv hl
      rw [h2.hd _ hl, List.head?_eq_none_iff] at this
      exact this
    · exact h2.out v (by omega)
  · intro x hx
    dsimp only at hx ⊢
    rw [h4] at hx ⊢
    by_cases e : x < S
    · rw [if_pos e]; exact (h5 x _).mpr ⟨e, rfl⟩
    · rw [if_neg e] at hx; exact absurd rfl hx
  · intro _
    dsimp only
    have := hsp.2.2 hk
    rw [h2.hd _ (by omega)] at this
    intro hn
    rw [hn] at this
    exact this rfl
  · intro x hx; exact ⟨_, (h5 x _).mpr ⟨hx, rfl⟩⟩

/-- A column with 200 keys or more is refused. -/
theorem init_heavy {S : Nat} (wt : Nat → Nat) {c : Nat} (hc : c < S) (hw : 200 ≤ wt c) :
    WData.init S wt = .error .heavy := by
  -- the first such column
  have hex : ∃ c, c < S ∧ 200 ≤ wt c := ⟨c, hc, hw⟩
  obtain ⟨m, ⟨hm, hmw⟩, hmin⟩ : ∃ m, (m < S ∧ 200 ≤ wt m) ∧ ∀ x < m, ¬ (x < S ∧ 200 ≤ wt x) := by
    classical
    exact ⟨Nat.find hex, Nat.find_spec hex, fun x hx => Nat.find_min hex hx⟩
  have hlt : ∀ x < m, wt x < 200 := by
    intro x hx
    have := hmin x hx
    apply Classical.byContradiction
    intro hn; exact this ⟨by omega, by omega⟩
  obtain ⟨d, L, h1, h2, h3, _, _⟩ := add_fold (S := m) wt hlt m (Nat.le_refl m)
  have hr : List.range S = List.range m ++ m :: List.range' (m + 1) (S - (m + 1)) := by
    rw [List.range_eq_range', List.range_eq_range', ← List.range'_succ]
    have : S = m + (S - (m + 1) + 1) := by omega
    have h2 := List.range'_append_1 (s := 0) (m := m) (n := S - (m + 1) + 1)
    rw [Nat.zero_add, ← this] at h2
    exact h2.symm
  unfold WData.init
  rw [hr, List.foldlM_append, h1]
  show ((List.foldlM (WData.add wt) d (m :: List.range' (m + 1) (S - (m + 1)))) >>= _) = _
  rw [List.foldlM_cons]
  unfold WData.add
  rw [if_pos (by rw [h3]; exact hmw)]
  rfl

end Psi.Okvs
