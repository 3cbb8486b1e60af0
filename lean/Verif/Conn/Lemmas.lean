import Verif.Conn.Model
namespace Conn

/-- The bookkeeping: `others` are the descriptors open in the process that are not tracked here. -/
structure Inv (others : List Nat) (s : St) : Prop where
  openIff : ∀ x, x ∈ s.opened ↔ x ∈ others ∨ ∃ i, s.fds i = some x ∨ s.dups i = some x
  fdsInj : ∀ i j x, s.fds i = some x → s.fds j = some x → i = j
  dupsInj : ∀ i j x, s.dups i = some x → s.dups j = some x → i = j
  disj : ∀ i j x, s.fds i = some x → s.dups j ≠ some x
  oth : ∀ i x, s.fds i = some x ∨ s.dups i = some x → x ∉ others
  bound : ∀ i, maxip ≤ i → s.fds i = none ∧ s.dups i = none

/-- Both descriptors of a slot are there, or none. -/
def Paired (s : St) : Prop := ∀ i, s.fds i = none ↔ s.dups i = none

theorem upd_self (f : Nat → Option Nat) (i v) : upd f i v i = v := by simp [upd]
theorem upd_ne (f : Nat → Option Nat) {i j : Nat} (v) (h : j ≠ i) : upd f i v j = f j := by simp [upd, h]

theorem upd_none_some {f : Nat → Option Nat} {i j x : Nat} (h : upd f i none j = some x) : j ≠ i ∧ f j = some x := by
  by_cases hj : j = i
  · subst hj; rw [upd_self] at h; cases h
  · rw [upd_ne f none hj] at h; exact ⟨hj, h⟩

theorem mem_closeFd (o : List Nat) (f : Option Nat) (x : Nat) : x ∈ closeFd o f ↔ x ∈ o ∧ f ≠ some x := by
  cases f with
  | none => simp [closeFd]
  | some f =>
    simp only [closeFd, List.mem_filter, ne_eq, Option.some.injEq, decide_eq_true_eq]
    constructor
    · rintro ⟨h1, h2⟩; exact ⟨h1, fun h => h2 h.symm⟩
    · rintro ⟨h1, h2⟩; exact ⟨h1, fun h => h2 h.symm⟩

theorem closeslot_fds {s : St} {i : Nat} (hi : i < maxip) : (closeslot s i).fds = upd s.fds i none := by
  unfold closeslot; rw [if_neg (by omega)]
theorem closeslot_dups {s : St} {i : Nat} (hi : i < maxip) : (closeslot s i).dups = upd s.dups i none := by
  unfold closeslot; rw [if_neg (by omega)]
theorem closeslot_opened {s : St} {i : Nat} (hi : i < maxip) (x : Nat) :
    x ∈ (closeslot s i).opened ↔ x ∈ s.opened ∧ s.fds i ≠ some x ∧ s.dups i ≠ some x := by
  unfold closeslot; rw [if_neg (by omega)]
  simp only [mem_closeFd, and_assoc]
theorem closeslot_tried (s : St) (i : Nat) : (closeslot s i).tried = s.tried := by
  unfold closeslot; split <;> rfl
theorem closeslot_success (s : St) (i : Nat) : (closeslot s i).success = s.success := by
  unfold closeslot; split <;> rfl

theorem closeslot_inv {o : List Nat} {s : St} (h : Inv o s) (i : Nat) : Inv o (closeslot s i) := by
  by_cases hi : i < maxip
  · constructor
    · intro x
      rw [closeslot_opened hi, closeslot_fds hi, closeslot_dups hi, h.openIff]
      constructor
      · rintro ⟨h1 | ⟨j, hj⟩, h2, h3⟩
        · exact .inl h1
        · right
          by_cases hji : j = i
          · subst hji; exact absurd hj (by simp [h2, h3])
          · exact ⟨j, by rw [upd_ne _ _ hji, upd_ne _ _ hji]; exact hj⟩
      · rintro (h1 | ⟨j, hj⟩)
        · exact ⟨.inl h1, fun h2 => h.oth i x (.inl h2) h1, fun h2 => h.oth i x (.inr h2) h1⟩
        · rcases hj with hj | hj
          · obtain ⟨hji, hj⟩ := upd_none_some hj
            exact ⟨.inr ⟨j, .inl hj⟩, fun h2 => hji (h.fdsInj _ _ _ hj h2), h.disj _ _ _ hj⟩
          · obtain ⟨hji, hj⟩ := upd_none_some hj
            exact ⟨.inr ⟨j, .inr hj⟩, fun h2 => h.disj _ _ _ h2 hj, fun h2 => hji (h.dupsInj _ _ _ hj h2)⟩
    · intro a b x h1 h2
      rw [closeslot_fds hi] at h1 h2
      exact h.fdsInj _ _ _ (upd_none_some h1).2 (upd_none_some h2).2
    · intro a b x h1 h2
      rw [closeslot_dups hi] at h1 h2
      exact h.dupsInj _ _ _ (upd_none_some h1).2 (upd_none_some h2).2
    · intro a b x h1 h2
      rw [closeslot_fds hi] at h1
      rw [closeslot_dups hi] at h2
      exact h.disj _ _ _ (upd_none_some h1).2 (upd_none_some h2).2
    · intro a x h1
      rw [closeslot_fds hi, closeslot_dups hi] at h1
      rcases h1 with h1 | h1
      · exact h.oth _ _ (.inl (upd_none_some h1).2)
      · exact h.oth _ _ (.inr (upd_none_some h1).2)
    · intro a ha
      rw [closeslot_fds hi, closeslot_dups hi, upd_ne _ _ (by omega), upd_ne _ _ (by omega)]
      exact h.bound a ha
  · have : closeslot s i = s := by unfold closeslot; rw [if_pos (by omega)]
    rw [this]; exact h

theorem closeslot_paired {s : St} (h : Paired s) (i : Nat) : Paired (closeslot s i) := by
  by_cases hi : i < maxip
  · intro j
    rw [closeslot_fds hi, closeslot_dups hi]
    by_cases hj : j = i
    · subst hj; simp [upd_self]
    · rw [upd_ne _ _ hj, upd_ne _ _ hj]; exact h j
  · have : closeslot s i = s := by unfold closeslot; rw [if_pos (by omega)]
    rw [this]; exact h

theorem resetLoop_ok {o : List Nat} : ∀ k i (s : St), Inv o s → k + i = maxip → (∀ j, j < i → s.fds j = none ∧ s.dups j = none) →
    Inv o (resetLoop s k i) ∧ (∀ j, (resetLoop s k i).fds j = none ∧ (resetLoop s k i).dups j = none) ∧
    (resetLoop s k i).tried = s.tried ∧ (resetLoop s k i).success = s.success := by
  intro k
  induction k with
  | zero =>
    intro i s h hk hj
    refine ⟨h, ?_, rfl, rfl⟩
    intro j
    show s.fds j = none ∧ s.dups j = none
    by_cases hji : j < i
    · exact hj j hji
    · exact h.bound j (by omega)
  | succ k ih =>
    intro i s h hk hj
    have hi : i < maxip := by omega
    obtain ⟨h1, h2, h3, h4⟩ := ih (i + 1) (closeslot s i) (closeslot_inv h i) (by omega) (by
      intro j hji
      rw [closeslot_fds hi, closeslot_dups hi]
      by_cases he : j = i
      · subst he; simp [upd_self]
      · rw [upd_ne _ _ he, upd_ne _ _ he]; exact hj j (by omega))
    exact ⟨h1, h2, by rw [resetLoop, h3, closeslot_tried], by rw [resetLoop, h4, closeslot_success]⟩

theorem reset_ok {o : List Nat} {s : St} (h : Inv o s) : Inv o (reset s) ∧
    (∀ j, (reset s).fds j = none ∧ (reset s).dups j = none) ∧ (reset s).tried = s.tried ∧ (reset s).success = s.success :=
  resetLoop_ok maxip 0 s h (by omega) (fun j hj => absurd hj (by omega))

/-- Nothing tracked: the open descriptors are the others. -/
theorem Inv.free {o : List Nat} {s : St} (h : Inv o s) (hf : ∀ j, s.fds j = none ∧ s.dups j = none) (x : Nat) :
    x ∈ s.opened ↔ x ∈ o := by
  rw [h.openIff]
  constructor
  · rintro (h1 | ⟨i, h1 | h1⟩)
    · exact h1
    · rw [(hf i).1] at h1; cases h1
    · rw [(hf i).2] at h1; cases h1
  · exact .inl

theorem add_fd {o : List Nat} {s : St} (h : Inv o s) {i f : Nat} (hi : i < maxip) (hf : f ∉ s.opened) (hn : s.fds i = none) :
    Inv o { s with fds := upd s.fds i (some f), opened := f :: s.opened } := by
  have nf : ∀ j, s.fds j ≠ some f := fun j hj => hf ((h.openIff f).2 (.inr ⟨j, .inl hj⟩))
  have nd : ∀ j, s.dups j ≠ some f := fun j hj => hf ((h.openIff f).2 (.inr ⟨j, .inr hj⟩))
  have no : f ∉ o := fun hj => hf ((h.openIff f).2 (.inl hj))
  have key : ∀ j x, upd s.fds i (some f) j = some x → (j = i ∧ x = f) ∨ (j ≠ i ∧ s.fds j = some x) := by
    intro j x hj
    by_cases he : j = i
    · subst he; rw [upd_self] at hj; exact .inl ⟨rfl, (Option.some.inj hj).symm⟩
    · rw [upd_ne _ _ he] at hj; exact .inr ⟨he, hj⟩
  constructor
  · intro x
    simp only [List.mem_cons]
    rw [h.openIff]
    constructor
    · rintro (rfl | h1 | ⟨j, h1 | h1⟩)
      · exact .inr ⟨i, .inl (upd_self _ _ _)⟩
      · exact .inl h1
      · refine .inr ⟨j, .inl ?_⟩
        rw [upd_ne]; exact h1
        intro he; subst he; rw [hn] at h1; cases h1
      · exact .inr ⟨j, .inr h1⟩
    · rintro (h1 | ⟨j, h1 | h1⟩)
      · exact .inr (.inl h1)
      · rcases key j x h1 with ⟨_, rfl⟩ | ⟨_, h2⟩
        · exact .inl rfl
        · exact .inr (.inr ⟨j, .inl h2⟩)
      · exact .inr (.inr ⟨j, .inr h1⟩)
  · intro a b x h1 h2
    rcases key a x h1 with ⟨e1, e2⟩ | ⟨e1, e2⟩ <;> rcases key b x h2 with ⟨e3, e4⟩ | ⟨e3, e4⟩
    · rw [e1, e3]
    · subst e2; exact absurd e4 (nf b)
    · subst e4; exact absurd e2 (nf a)
    · exact h.fdsInj a b x e2 e4
  · exact h.dupsInj
  · intro a b x h1 h2
    rcases key a x h1 with ⟨e1, e2⟩ | ⟨e1, e2⟩
    · subst e2; exact nd b h2
    · exact h.disj a b x e2 h2
  · intro a x h1
    rcases h1 with h1 | h1
    · rcases key a x h1 with ⟨e1, e2⟩ | ⟨e1, e2⟩
      · subst e2; exact no
      · exact h.oth a x (.inl e2)
    · exact h.oth a x (.inr h1)
  · intro a ha
    simp only []
    rw [upd_ne _ _ (by omega)]
    exact h.bound a ha

theorem add_dup {o : List Nat} {s : St} (h : Inv o s) {i f : Nat} (hi : i < maxip) (hf : f ∉ s.opened) (hn : s.dups i = none) :
    Inv o { s with dups := upd s.dups i (some f), opened := f :: s.opened } := by
  have nf : ∀ j, s.fds j ≠ some f := fun j hj => hf ((h.openIff f).2 (.inr ⟨j, .inl hj⟩))
  have nd : ∀ j, s.dups j ≠ some f := fun j hj => hf ((h.openIff f).2 (.inr ⟨j, .inr hj⟩))
  have no : f ∉ o := fun hj => hf ((h.openIff f).2 (.inl hj))
  have key : ∀ j x, upd s.dups i (some f) j = some x → (j = i ∧ x = f) ∨ (j ≠ i ∧ s.dups j = some x) := by
    intro j x hj
    by_cases he : j = i
    · subst he; rw [upd_self] at hj; exact .inl ⟨rfl, (Option.some.inj hj).symm⟩
    · rw [upd_ne _ _ he] at hj; exact .inr ⟨he, hj⟩
  constructor
  · intro x
    simp only [List.mem_cons]
    rw [h.openIff]
    constructor
    · rintro (rfl | h1 | ⟨j, h1 | h1⟩)
      · exact .inr ⟨i, .inr (upd_self _ _ _)⟩
      · exact .inl h1
      · exact .inr ⟨j, .inl h1⟩
      · refine .inr ⟨j, .inr ?_⟩
        rw [upd_ne]; exact h1
        intro he; subst he; rw [hn] at h1; cases h1
    · rintro (h1 | ⟨j, h1 | h1⟩)
      · exact .inr (.inl h1)
      · exact .inr (.inr ⟨j, .inl h1⟩)
      · rcases key j x h1 with ⟨_, rfl⟩ | ⟨_, h2⟩
        · exact .inl rfl
        · exact .inr (.inr ⟨j, .inr h2⟩)
  · exact h.fdsInj
  · intro a b x h1 h2
    rcases key a x h1 with ⟨e1, e2⟩ | ⟨e1, e2⟩ <;> rcases key b x h2 with ⟨e3, e4⟩ | ⟨e3, e4⟩
    · rw [e1, e3]
    · subst e2; exact absurd e4 (nd b)
    · subst e4; exact absurd e2 (nd a)
    · exact h.dupsInj a b x e2 e4
  · intro a b x h1 h2
    rcases key b x h2 with ⟨e1, e2⟩ | ⟨e1, e2⟩
    · subst e2; exact nf a h1
    · exact h.disj a b x h1 e2
  · intro a x h1
    rcases h1 with h1 | h1
    · exact h.oth a x (.inl h1)
    · rcases key a x h1 with ⟨e1, e2⟩ | ⟨e1, e2⟩
      · subst e2; exact no
      · exact h.oth a x (.inr e2)
  · intro a ha
    simp only []
    rw [upd_ne _ _ (by omega)]
    exact h.bound a ha

/-- What conn_init leaves behind. -/
structure Ready (o : List Nat) (n : Nat) (s : St) : Prop where
  inv : Inv o s
  full : ∀ j, j < n → s.fds j ≠ none ∧ s.dups j ≠ none
  empty : ∀ j, n ≤ j → s.fds j = none ∧ s.dups j = none

theorem upd_none_eq {f : Nat → Option Nat} {i : Nat} (h : f i = none) : upd f i none = f := by
  funext j; by_cases hj : j = i
  · subst hj; rw [upd_self, h]
  · rw [upd_ne _ _ hj]

theorem initLoop_ok {o : List Nat} : ∀ k i (s : St) ev, Ready o i s → k + i ≤ maxip → ∀ b s' ev',
    initLoop k i s ev = some (b, s', ev') →
    (if b then Ready o (k + i) s' else Ready o 0 s') ∧ s'.tried = s.tried ∧ s'.success = s.success := by
  intro k
  induction k with
  | zero =>
    intro i s ev h hk b s' ev' e
    simp only [initLoop, Option.some.injEq, Prod.mk.injEq] at e
    obtain ⟨rfl, rfl, rfl⟩ := e
    rw [if_pos rfl, Nat.zero_add]; exact ⟨h, rfl, rfl⟩
  | succ k ih =>
    intro i s ev h hk b s' ev' e
    match ev, e with
    | .socket none :: ev, e =>
      simp only [initLoop, Option.some.injEq, Prod.mk.injEq] at e
      obtain ⟨rfl, rfl, rfl⟩ := e
      rw [upd_none_eq (h.empty i (Nat.le_refl _)).1]
      obtain ⟨h1, h2, h3, h4⟩ := reset_ok h.inv
      exact ⟨by simpa using ⟨h1, fun j hj => absurd hj (by omega), fun j _ => h2 j⟩, h3, h4⟩
    | .socket (some f) :: ev, e =>
      rw [initLoop] at e
      by_cases hf : f ∈ s.opened
      · rw [if_pos hf] at e; cases e
      · rw [if_neg hf] at e
        have hadd := add_fd h.inv (i := i) (by omega) hf (h.empty i (Nat.le_refl _)).1
        match ev, e with
        | .dup none :: ev, e =>
          simp only [Option.some.injEq, Prod.mk.injEq] at e
          obtain ⟨rfl, rfl, rfl⟩ := e
          rw [upd_none_eq (h.empty i (Nat.le_refl _)).2]
          obtain ⟨h1, h2, h3, h4⟩ := reset_ok hadd
          exact ⟨by simpa using ⟨h1, fun j hj => absurd hj (by omega), fun j _ => h2 j⟩, h3, h4⟩
        | .dup (some d) :: ev, e =>
          simp only [] at e
          by_cases hd : d ∈ f :: s.opened
          · rw [if_pos hd] at e; cases e
          · rw [if_neg hd] at e
            have hadd2 := add_dup hadd (i := i) (f := d) (by omega) hd (h.empty i (Nat.le_refl _)).2
            have := ih (i + 1) _ ev ⟨hadd2, ?_, ?_⟩ (by omega) b s' ev' e
            · rw [show k + 1 + i = k + (i + 1) by omega]; exact this
            · intro j hj
              simp only []
              by_cases he : j = i
              · subst he; simp [upd_self]
              · rw [upd_ne _ _ he, upd_ne _ _ he]; exact h.full j (by omega)
            · intro j hj
              simp only []
              rw [upd_ne _ _ (by omega), upd_ne _ _ (by omega)]
              exact h.empty j (by omega)
        | [], e => simp at e
        | .socket _ :: _, e => simp at e
        | .connect _ :: _, e => simp at e
        | .time _ :: _, e => simp at e
        | .poll _ _ :: _, e => simp at e
        | .isConnected _ :: _, e => simp at e
    | [], e => simp [initLoop] at e
    | .dup _ :: _, e => simp [initLoop] at e
    | .connect _ :: _, e => simp [initLoop] at e
    | .time _ :: _, e => simp [initLoop] at e
    | .poll _ _ :: _, e => simp [initLoop] at e
    | .isConnected _ :: _, e => simp [initLoop] at e

theorem findslot_of {s : St} {fd : Nat} : ∀ k i j, i ≤ j → j < i + k → s.fds j = some fd → (∀ a b x, s.fds a = some x → s.fds b = some x → a = b) →
    findslot s fd k i = some j := by
  intro k
  induction k with
  | zero => intro i j h1 h2; omega
  | succ k ih =>
    intro i j h1 h2 h3 hinj
    rw [findslot]
    by_cases he : s.fds i = some fd
    · rw [if_pos he, hinj i j fd he h3]
    · rw [if_neg he]
      have : i ≠ j := fun h => he (h ▸ h3)
      exact ih (i + 1) j (by omega) (by omega) h3 hinj

theorem Inv.findslot {o : List Nat} {s : St} (h : Inv o s) {fd j : Nat} (hj : s.fds j = some fd) : Conn.findslot s fd maxip 0 = some j := by
  have : j < maxip := by
    by_cases hb : j < maxip
    · exact hb
    · rw [(h.bound j (by omega)).1] at hj; cases hj
  exact findslot_of maxip 0 j (by omega) (by omega) hj h.fdsInj

theorem copyLoop_ok (won : Nat) : ∀ k i (s : St) d, k + i ≤ maxip →
    (∀ j, (copyLoop won k i s d).1.fds j = if i ≤ j ∧ j < i + k then none else s.fds j) ∧
    (∀ j, (copyLoop won k i s d).1.dups j = if i ≤ j ∧ j < i + k then none else s.dups j) ∧
    (∀ x, x ∈ (copyLoop won k i s d).1.opened ↔ x ∈ s.opened ∧ ∀ j, i ≤ j → j < i + k → j ≠ won → s.fds j ≠ some x ∧ s.dups j ≠ some x) ∧
    (copyLoop won k i s d).2 = (if i ≤ won ∧ won < i + k then s.dups won else d) ∧
    (copyLoop won k i s d).1.tried = s.tried ∧ (copyLoop won k i s d).1.success = s.success := by
  intro k
  induction k with
  | zero =>
    intro i s d hk
    refine ⟨fun j => ?_, fun j => ?_, fun x => ?_, ?_, rfl, rfl⟩
    · rw [if_neg (by omega)]; rfl
    · rw [if_neg (by omega)]; rfl
    · simp only [copyLoop]
      exact ⟨fun h => ⟨h, fun j h1 h2 => by omega⟩, fun h => h.1⟩
    · rw [if_neg (by omega)]; rfl
  | succ k ih =>
    intro i s d hk
    have hi : i < maxip := by omega
    rw [copyLoop]
    by_cases hw : i = won
    · rw [if_pos hw]
      obtain ⟨h1, h2, h3, h4, h5, h6⟩ := ih (i + 1) { s with dups := upd s.dups i none, fds := upd s.fds i none } (s.dups i) (by omega)
      simp only [] at h1 h2 h3 h4 h5 h6
      refine ⟨fun j => ?_, fun j => ?_, fun x => ?_, ?_, h5, h6⟩
      · rw [h1 j]
        by_cases he : j = i
        · subst he; rw [if_neg (by omega), if_pos (by omega), upd_self]
        · rw [upd_ne _ _ he]
          by_cases hc : i + 1 ≤ j ∧ j < i + 1 + k
          · rw [if_pos hc, if_pos (by omega)]
          · rw [if_neg hc, if_neg (by omega)]
      · rw [h2 j]
        by_cases he : j = i
        · subst he; rw [if_neg (by omega), if_pos (by omega), upd_self]
        · rw [upd_ne _ _ he]
          by_cases hc : i + 1 ≤ j ∧ j < i + 1 + k
          · rw [if_pos hc, if_pos (by omega)]
          · rw [if_neg hc, if_neg (by omega)]
      · rw [h3 x]
        constructor
        · rintro ⟨a, b⟩
          refine ⟨a, fun j c1 c2 c3 => ?_⟩
          have := b j (by omega) (by omega) c3
          rwa [upd_ne _ _ (by omega), upd_ne _ _ (by omega)] at this
        · rintro ⟨a, b⟩
          refine ⟨a, fun j c1 c2 c3 => ?_⟩
          rw [upd_ne _ _ (by omega), upd_ne _ _ (by omega)]
          exact b j (by omega) (by omega) c3
      · rw [h4, if_neg (by omega), if_pos (by omega), hw]
    · rw [if_neg hw]
      have skip : ∀ s2 : St, (∀ j, s2.fds j = upd s.fds i none j) → (∀ j, s2.dups j = upd s.dups i none j) →
          (∀ x, x ∈ s2.opened ↔ x ∈ s.opened ∧ s.fds i ≠ some x ∧ s.dups i ≠ some x) → s2.tried = s.tried → s2.success = s.success →
          (∀ j, (copyLoop won k (i + 1) s2 d).1.fds j = if i ≤ j ∧ j < i + (k + 1) then none else s.fds j) ∧
          (∀ j, (copyLoop won k (i + 1) s2 d).1.dups j = if i ≤ j ∧ j < i + (k + 1) then none else s.dups j) ∧
          (∀ x, x ∈ (copyLoop won k (i + 1) s2 d).1.opened ↔ x ∈ s.opened ∧ ∀ j, i ≤ j → j < i + (k + 1) → j ≠ won → s.fds j ≠ some x ∧ s.dups j ≠ some x) ∧
          (copyLoop won k (i + 1) s2 d).2 = (if i ≤ won ∧ won < i + (k + 1) then s.dups won else d) ∧
          (copyLoop won k (i + 1) s2 d).1.tried = s.tried ∧ (copyLoop won k (i + 1) s2 d).1.success = s.success := by
        intro s2 e1 e2 e3 e4 e5
        obtain ⟨h1, h2, h3, h4, h5, h6⟩ := ih (i + 1) s2 d (by omega)
        refine ⟨fun j => ?_, fun j => ?_, fun x => ?_, ?_, by rw [h5, e4], by rw [h6, e5]⟩
        · rw [h1 j, e1 j]
          by_cases he : j = i
          · subst he; rw [if_neg (by omega), if_pos (by omega), upd_self]
          · rw [upd_ne _ _ he]
            by_cases hc : i + 1 ≤ j ∧ j < i + 1 + k
            · rw [if_pos hc, if_pos (by omega)]
            · rw [if_neg hc, if_neg (by omega)]
        · rw [h2 j, e2 j]
          by_cases he : j = i
          · subst he; rw [if_neg (by omega), if_pos (by omega), upd_self]
          · rw [upd_ne _ _ he]
            by_cases hc : i + 1 ≤ j ∧ j < i + 1 + k
            · rw [if_pos hc, if_pos (by omega)]
            · rw [if_neg hc, if_neg (by omega)]
        · rw [h3 x, e3 x]
          constructor
          · rintro ⟨⟨a, a2, a3⟩, b⟩
            refine ⟨a, fun j c1 c2 c3 => ?_⟩
            by_cases he : j = i
            · subst he; exact ⟨a2, a3⟩
            · have := b j (by omega) (by omega) c3
              rwa [e1, e2, upd_ne _ _ he, upd_ne _ _ he] at this
          · rintro ⟨a, b⟩
            refine ⟨⟨a, b i (by omega) (by omega) hw⟩, fun j c1 c2 c3 => ?_⟩
            rw [e1, e2, upd_ne _ _ (by omega), upd_ne _ _ (by omega)]
            exact b j (by omega) (by omega) c3
        · rw [h4, e2 won, upd_ne _ _ (fun h => hw h.symm)]
          by_cases hc : i + 1 ≤ won ∧ won < i + 1 + k
          · rw [if_pos hc, if_pos (by omega)]
          · rw [if_neg hc, if_neg (by omega)]
      by_cases hn : s.fds i ≠ none ∨ s.dups i ≠ none
      · rw [if_pos hn]
        exact skip (closeslot s i) (fun j => by rw [closeslot_fds hi]) (fun j => by rw [closeslot_dups hi])
          (closeslot_opened hi) (closeslot_tried s i) (closeslot_success s i)
      · rw [if_neg hn]
        have n1 : s.fds i = none := Classical.byContradiction (fun h => hn (.inl h))
        have n2 : s.dups i = none := Classical.byContradiction (fun h => hn (.inr h))
        exact skip s (fun j => by rw [upd_none_eq n1]) (fun j => by rw [upd_none_eq n2])
          (fun x => by simp [n1, n2]) rfl rfl

/-- Candidate address number `i`. -/
def cand (ip : Bytes) (i : Nat) : Bytes := (ip.drop (16 * i)).take 16

/-- The outcome of a successful attempt relative to the state `s0` it started in. -/
structure Won (o : List Nat) (ip : Bytes) (n : Nat) (d : Done) (fd d0 i : Nat) : Prop where
  ret : d.ret = .ok fd (some d0)
  opened : ∀ x, x ∈ d.st.opened ↔ x ∈ o ∨ x = fd ∨ x = d0
  fresh : fd ∉ o ∧ d0 ∉ o ∧ fd ≠ d0
  idle : ∀ j, d.st.fds j = none ∧ d.st.dups j = none
  slot : i < n
  tried : (fd, cand ip i) ∈ d.st.tried
  success : fd ∈ d.st.success
  ip : d.ip = cand ip i ++ ip.drop 16

structure Run (o : List Nat) (n : Nat) (s : St) : Prop where
  inv : Inv o s
  paired : Paired s
  empty : ∀ j, n ≤ j → s.fds j = none ∧ s.dups j = none

theorem Ready.run {o : List Nat} {n : Nat} {s : St} (hs : Ready o n s) : Run o n s := by
  refine ⟨hs.inv, ?_, hs.empty⟩
  intro i
  by_cases hi : i < n
  · exact ⟨fun h => absurd h (hs.full i hi).1, fun h => absurd h (hs.full i hi).2⟩
  · simp [hs.empty i (by omega)]

theorem win_ok {o : List Nat} {n : Nat} {s : St} (h : Run o n s) (hn : n ≤ maxip) {fd i : Nat} (hi : s.fds i = some fd) (ip : Bytes)
    (ht : (fd, cand ip i) ∈ s.tried) (hs : fd ∈ s.success) :
    ∃ d0, s.dups i = some d0 ∧ Won o ip n (win s fd ip n) fd d0 i := by
  have hin : i < n := by
    by_cases hc : i < n
    · exact hc
    · rw [(h.empty i (by omega)).1] at hi; cases hi
  obtain ⟨d0, hd0⟩ : ∃ d0, s.dups i = some d0 := by
    cases hd : s.dups i with
    | none => rw [(h.paired i).2 hd] at hi; cases hi
    | some d0 => exact ⟨d0, rfl⟩
  obtain ⟨c1, c2, c3, c4, c5, c6⟩ := copyLoop_ok i n 0 s none (by omega)
  have e : win s fd ip n = ⟨.ok fd (copyLoop i n 0 s none).2, (copyLoop i n 0 s none).1, cand ip i ++ ip.drop 16⟩ := by
    unfold win copyip
    rw [h.inv.findslot hi]
    simp only []
    rw [if_neg (by omega)]
    rfl
  refine ⟨d0, hd0, ?_⟩
  rw [e]
  constructor
  · simp only []; rw [c4, if_pos (by omega), hd0]
  · intro x
    simp only []
    rw [c3 x, h.inv.openIff]
    constructor
    · rintro ⟨a | ⟨j, a⟩, b⟩
      · exact .inl a
      · by_cases hj : j = i
        · subst hj
          rcases a with a | a
          · rw [hi] at a; exact .inr (.inl (Option.some.inj a).symm)
          · rw [hd0] at a; exact .inr (.inr (Option.some.inj a).symm)
        · have hjn : j < n := by
            by_cases hc : j < n
            · exact hc
            · have := h.empty j (by omega)
              rw [this.1, this.2] at a
              rcases a with a | a <;> cases a
          have := b j (by omega) (by omega) hj
          rcases a with a | a
          · exact absurd a this.1
          · exact absurd a this.2
    · rintro (a | rfl | rfl)
      · exact ⟨.inl a, fun j _ _ _ => ⟨fun hh => h.inv.oth j x (.inl hh) a, fun hh => h.inv.oth j x (.inr hh) a⟩⟩
      · exact ⟨.inr ⟨i, .inl hi⟩, fun j _ _ hj => ⟨fun hh => hj (h.inv.fdsInj _ _ _ hh hi), h.inv.disj _ _ _ hi⟩⟩
      · exact ⟨.inr ⟨i, .inr hd0⟩, fun j _ _ hj => ⟨fun hh => h.inv.disj _ _ _ hh hd0, fun hh => hj (h.inv.dupsInj _ _ _ hh hd0)⟩⟩
  · exact ⟨h.inv.oth i fd (.inl hi), h.inv.oth i d0 (.inr hd0), fun hh => h.inv.disj _ _ _ hi (hh ▸ hd0)⟩
  · intro j
    simp only []
    rw [c1 j, c2 j]
    by_cases hj : j < n
    · rw [if_pos (by omega), if_pos (by omega)]; exact ⟨rfl, rfl⟩
    · rw [if_neg (by omega), if_neg (by omega)]; exact h.empty j (by omega)
  · exact hin
  · simp only []; rw [c5]; exact ht
  · simp only []; rw [c6]; exact hs
  · rfl

theorem run_closeslot {o : List Nat} {n : Nat} {s : St} (h : Run o n s) (i : Nat) : Run o n (closeslot s i) := by
  refine ⟨closeslot_inv h.inv i, closeslot_paired h.paired i, ?_⟩
  intro j hj
  by_cases hi : i < maxip
  · rw [closeslot_fds hi, closeslot_dups hi]
    by_cases he : j = i
    · subst he; simp [upd_self]
    · rw [upd_ne _ _ he, upd_ne _ _ he]; exact h.empty j hj
  · have : closeslot s i = s := by unfold closeslot; rw [if_pos (by omega)]
    rw [this]; exact h.empty j hj

theorem run_log {o : List Nat} {n : Nat} {s : St} (h : Run o n s) (t q) : Run o n { s with tried := t, success := q } :=
  ⟨⟨h.inv.openIff, h.inv.fdsInj, h.inv.dupsInj, h.inv.disj, h.inv.oth, h.inv.bound⟩, h.paired, h.empty⟩

/-- The slots only lose descriptors. -/
def Sub (s s0 : St) : Prop := ∀ j x, (s.fds j = some x → s0.fds j = some x) ∧ (s.dups j = some x → s0.dups j = some x)

theorem Sub.refl (s : St) : Sub s s := fun _ _ => ⟨id, id⟩
theorem Sub.trans {a b c : St} (h : Sub a b) (h2 : Sub b c) : Sub a c :=
  fun j x => ⟨fun h3 => (h2 j x).1 ((h j x).1 h3), fun h3 => (h2 j x).2 ((h j x).2 h3)⟩
theorem closeslot_sub (s : St) (i : Nat) : Sub (closeslot s i) s := by
  by_cases hi : i < maxip
  · intro j x
    rw [closeslot_fds hi, closeslot_dups hi]
    exact ⟨fun h => (upd_none_some h).2, fun h => (upd_none_some h).2⟩
  · have : closeslot s i = s := by unfold closeslot; rw [if_pos (by omega)]
    rw [this]; exact Sub.refl s

theorem connectLoop_ok {o : List Nat} {n : Nat} (hn : n ≤ maxip) (ip : Bytes) : ∀ k i (s : St) ev, Run o n s → k + i = n →
    (∀ j fd, j < i → s.fds j = some fd → (fd, cand ip j) ∈ s.tried) → ∀ r ev', connectLoop ip n k i s ev = some (r, ev') →
    match r with
    | .inl d => ∃ fd d0 j, Won o ip n d fd d0 j ∧ s.fds j = some fd ∧ s.dups j = some d0
    | .inr s' => Run o n s' ∧ (∀ j fd, s'.fds j = some fd → (fd, cand ip j) ∈ s'.tried) ∧ Sub s' s := by
  intro k
  induction k with
  | zero =>
    intro i s ev h hk ht r ev' e
    simp only [connectLoop, Option.some.injEq, Prod.mk.injEq] at e
    obtain ⟨rfl, rfl⟩ := e
    refine ⟨h, ?_, Sub.refl s⟩
    intro j fd hj
    by_cases hc : j < i
    · exact ht j fd hc hj
    · rw [(h.empty j (by omega)).1] at hj; cases hj
  | succ k ih =>
    intro i s ev h hk ht r ev' e
    match ev, e with
    | .connect c :: ev, e =>
      rw [connectLoop] at e
      cases hf : s.fds i with
      | none =>
        rw [hf] at e
        simp only [] at e
        by_cases hc : c = .failed
        · rw [if_pos hc] at e
          have := ih (i + 1) (closeslot s i) ev (run_closeslot h i) (by omega) (by
            intro j fd hj hfd
            rw [closeslot_tried]
            have h2 := (closeslot_sub s i j fd).1 hfd
            by_cases he : j = i
            · subst he; rw [hf] at h2; cases h2
            · exact ht j fd (by omega) h2) r ev' e
          cases r with
          | inl d =>
            obtain ⟨fd, d0, j, h1, h2, h3⟩ := this
            exact ⟨fd, d0, j, h1, (closeslot_sub s i j fd).1 h2, (closeslot_sub s i j d0).2 h3⟩
          | inr s' => exact ⟨this.1, this.2.1, this.2.2.trans (closeslot_sub s i)⟩
        · rw [if_neg hc] at e; cases e
      | some fd =>
        rw [hf] at e
        simp only [] at e
        cases c with
        | connected =>
          simp only [if_pos, Option.some.injEq, Prod.mk.injEq] at e
          obtain ⟨rfl, rfl⟩ := e
          have hr := run_log h ((fd, (ip.drop (16 * i)).take 16) :: s.tried) (fd :: s.success)
          obtain ⟨d0, h1, h2⟩ := win_ok hr hn hf ip (by simp [cand]) (by simp)
          exact ⟨fd, d0, i, h2, hf, h1⟩
        | inProgress =>
          simp only [reduceCtorEq, if_false] at e
          have hr := run_log h ((fd, (ip.drop (16 * i)).take 16) :: s.tried) s.success
          exact ih (i + 1) _ ev hr (by omega) (by
            intro j fd' hj hfd
            by_cases he : j = i
            · subst he
              simp only [] at hfd
              rw [hf] at hfd
              rw [← Option.some.inj hfd]
              exact List.mem_cons_self
            · exact List.mem_cons_of_mem _ (ht j fd' (by omega) hfd)) r ev' e
        | failed =>
          simp only [reduceCtorEq, if_false] at e
          have hr := run_log h ((fd, (ip.drop (16 * i)).take 16) :: s.tried) s.success
          have := ih (i + 1) _ ev (run_closeslot hr i) (by omega) (by
            intro j fd' hj hfd
            rw [closeslot_tried]
            have h2 := (closeslot_sub _ i j fd').1 hfd
            by_cases he : j = i
            · subst he
              simp only [] at h2
              rw [hf] at h2
              rw [← Option.some.inj h2]
              exact List.mem_cons_self
            · exact List.mem_cons_of_mem _ (ht j fd' (by omega) h2)) r ev' e
          cases r with
          | inl d =>
            obtain ⟨fd, d0, j, h1, h2, h3⟩ := this
            have a1 := (closeslot_sub _ i j fd).1 h2
            have a2 := (closeslot_sub _ i j d0).2 h3
            exact ⟨fd, d0, j, h1, a1, a2⟩
          | inr s' => exact ⟨this.1, this.2.1, this.2.2.trans (closeslot_sub _ i)⟩
    | [], e => simp [connectLoop] at e
    | .socket _ :: _, e => simp [connectLoop] at e
    | .dup _ :: _, e => simp [connectLoop] at e
    | .time _ :: _, e => simp [connectLoop] at e
    | .poll _ _ :: _, e => simp [connectLoop] at e
    | .isConnected _ :: _, e => simp [connectLoop] at e

theorem scan_ok {o : List Nat} {n : Nat} (hn : n ≤ maxip) (ip : Bytes) : ∀ (p : List (Nat × Bool)) (s : St) ev, Run o n s →
    (∀ j fd, s.fds j = some fd → (fd, cand ip j) ∈ s.tried) →
    (p.map (·.1)).Nodup → (∀ q ∈ p, ∃ j, s.fds j = some q.1) → ∀ r ev', scan ip n p s ev = some (r, ev') →
    match r with
    | .inl d => ∃ fd d0 j, Won o ip n d fd d0 j ∧ s.fds j = some fd ∧ s.dups j = some d0
    | .inr s' => Run o n s' ∧ (∀ j fd, s'.fds j = some fd → (fd, cand ip j) ∈ s'.tried) ∧ Sub s' s := by
  intro p
  induction p with
  | nil =>
    intro s ev h ht _ _ r ev' e
    simp only [scan, Option.some.injEq, Prod.mk.injEq] at e
    obtain ⟨rfl, rfl⟩ := e
    exact ⟨h, ht, Sub.refl s⟩
  | cons q p ih =>
    intro s ev h ht hnd hin r ev' e
    obtain ⟨fd, b⟩ := q
    simp only [List.map_cons, List.nodup_cons] at hnd
    cases b with
    | false =>
      rw [scan] at e
      exact ih s ev h ht hnd.2 (fun q hq => hin q (List.mem_cons_of_mem _ hq)) r ev' e
    | true =>
      obtain ⟨j, hj⟩ := hin (fd, true) List.mem_cons_self
      simp only [] at hj
      match ev, e with
      | .isConnected b :: ev, e =>
        rw [scan] at e
        cases b with
        | true =>
          simp only [if_pos, Option.some.injEq, Prod.mk.injEq] at e
          obtain ⟨rfl, rfl⟩ := e
          have hr := run_log h s.tried (fd :: s.success)
          obtain ⟨d0, h1, h2⟩ := win_ok hr hn hj ip (ht j fd hj) (by simp)
          exact ⟨fd, d0, j, h2, hj, h1⟩
        | false =>
          simp only [Bool.false_eq_true, if_false] at e
          have hcf : closefd { s with success := s.success } fd = closeslot s j := by
            unfold closefd
            rw [h.inv.findslot hj]
          rw [hcf] at e
          have hjm : j < maxip := by
            by_cases hc : j < maxip
            · exact hc
            · rw [(h.inv.bound j (by omega)).1] at hj; cases hj
          have := ih (closeslot s j) ev (run_closeslot h j) (by
              intro a x hax
              rw [closeslot_tried]
              exact ht a x ((closeslot_sub s j a x).1 hax)) hnd.2 (by
              intro q hq
              obtain ⟨a, ha⟩ := hin q (List.mem_cons_of_mem _ hq)
              refine ⟨a, ?_⟩
              rw [closeslot_fds hjm, upd_ne]
              · exact ha
              · intro he
                subst he
                rw [hj] at ha
                exact hnd.1 (List.mem_map.2 ⟨q, hq, (Option.some.inj ha).symm⟩)) r ev' e
          cases r with
          | inl d =>
            obtain ⟨fd', d0, a, h1, h2, h3⟩ := this
            exact ⟨fd', d0, a, h1, (closeslot_sub s j a fd').1 h2, (closeslot_sub s j a d0).2 h3⟩
          | inr s' => exact ⟨this.1, this.2.1, this.2.2.trans (closeslot_sub s j)⟩
      | [], e => simp [scan] at e
      | .socket _ :: _, e => simp [scan] at e
      | .dup _ :: _, e => simp [scan] at e
      | .time _ :: _, e => simp [scan] at e
      | .poll _ _ :: _, e => simp [scan] at e
      | .connect _ :: _, e => simp [scan] at e

theorem pending_nodup {o : List Nat} {s : St} (h : Inv o s) (n : Nat) : (pending s n).Nodup := by
  unfold pending
  rw [List.nodup_iff_pairwise_ne, List.pairwise_filterMap]
  exact List.nodup_range.imp (fun {a b} hab => by
    intro x hx y hy he
    subst he
    exact hab (h.fdsInj _ _ _ hx hy))

theorem mem_pending {s : St} {n x : Nat} (h : x ∈ pending s n) : ∃ j, s.fds j = some x := by
  unfold pending at h
  obtain ⟨j, _, hj⟩ := List.mem_filterMap.1 h
  exact ⟨j, hj⟩

theorem map_fst_zip_sub {α β} (a : List α) (b : List β) (h : b.length = a.length) : (a.zip b).map (·.1) = a := by
  rw [List.map_fst_zip]; omega

/-- What a finished attempt is: a winner, or failure with nothing left open. -/
def Outcome (o : List Nat) (ip : Bytes) (n : Nat) (s0 : St) (d : Done) : Prop :=
  (∃ fd d0 j, Won o ip n d fd d0 j ∧ s0.fds j = some fd ∧ s0.dups j = some d0) ∨
  (d.ret = .fail ∧ d.ip = ip ∧ (∀ x, x ∈ d.st.opened ↔ x ∈ o) ∧ ∀ j, d.st.fds j = none ∧ d.st.dups j = none)

theorem fail_outcome {o : List Nat} {n : Nat} {s : St} (h : Run o n s) (ip : Bytes) (s0 : St) :
    Outcome o ip n s0 ⟨.fail, reset s, ip⟩ := by
  obtain ⟨h1, h2, _, _⟩ := reset_ok h.inv
  exact .inr ⟨rfl, rfl, h1.free h2, h2⟩

theorem pollLoop_ok {o : List Nat} {n : Nat} (hn : n ≤ maxip) (ip : Bytes) (deadline : Int) (s0 : St) : ∀ fuel (s : St) ev, Run o n s →
    (∀ j fd, s.fds j = some fd → (fd, cand ip j) ∈ s.tried) → Sub s s0 → ∀ d ev', pollLoop ip n deadline fuel s ev = some (d, ev') →
    Outcome o ip n s0 d := by
  intro fuel
  induction fuel with
  | zero => intro s ev _ _ _ d ev' e; simp [pollLoop] at e
  | succ fuel ih =>
    intro s ev h ht hsub d ev' e
    unfold pollLoop at e
    by_cases hp : pending s n = []
    · rw [if_pos hp] at e
      simp only [Option.some.injEq, Prod.mk.injEq] at e
      rw [← e.1]; exact fail_outcome h ip s0
    · rw [if_neg hp] at e
      match ev, e with
      | .time t :: ev, e =>
        simp only [] at e
        by_cases hd : deadline - t ≤ 0
        · rw [if_pos hd] at e
          simp only [Option.some.injEq, Prod.mk.injEq] at e
          rw [← e.1]; exact fail_outcome h ip s0
        · rw [if_neg hd] at e
          match ev, e with
          | .poll tm .eintr :: ev, e =>
            simp only [] at e
            by_cases htm : tm ≠ asInt (deadline - t)
            · rw [if_pos htm] at e; cases e
            rw [if_neg htm] at e
            exact ih s ev h ht hsub d ev' e
          | .poll tm .failed :: ev, e =>
            simp only [] at e
            by_cases htm : tm ≠ asInt (deadline - t)
            · rw [if_pos htm] at e; cases e
            rw [if_neg htm] at e
            simp only [Option.some.injEq, Prod.mk.injEq] at e
            rw [← e.1]; exact fail_outcome h ip s0
          | .poll tm (.ready rev) :: ev, e =>
            simp only [] at e
            by_cases htm : tm ≠ asInt (deadline - t)
            · rw [if_pos htm] at e; cases e
            rw [if_neg htm] at e
            by_cases hl : rev.length ≠ (pending s n).length
            · rw [if_pos hl] at e; cases e
            · rw [if_neg hl] at e
              have hl' : rev.length = (pending s n).length := Classical.not_not.1 hl
              have hz : ((pending s n).zip rev).map (·.1) = pending s n := map_fst_zip_sub _ _ hl'
              rcases hs : scan ip n ((pending s n).zip rev) s ev with _ | ⟨r, ev2⟩
              · rw [hs] at e; cases e
              · rw [hs] at e
                have := scan_ok hn ip ((pending s n).zip rev) s ev h ht (by rw [hz]; exact pending_nodup h.inv n) (by
                  intro q hq
                  apply mem_pending (n := n)
                  rw [← hz]
                  exact List.mem_map.2 ⟨q, hq, rfl⟩) r ev2 hs
                cases r with
                | inl d2 =>
                  simp only [Option.some.injEq, Prod.mk.injEq] at e
                  rw [← e.1]
                  obtain ⟨fd, d0, j, h1, h2, h3⟩ := this
                  exact .inl ⟨fd, d0, j, h1, (hsub j fd).1 h2, (hsub j d0).2 h3⟩
                | inr s2 => exact ih s2 ev2 this.1 this.2.1 (this.2.2.trans hsub) d ev' e
          | [], e => simp at e
          | .socket _ :: _, e => simp at e
          | .dup _ :: _, e => simp at e
          | .time _ :: _, e => simp at e
          | .connect _ :: _, e => simp at e
          | .isConnected _ :: _, e => simp at e
      | [], e => simp at e
      | .socket _ :: _, e => simp at e
      | .dup _ :: _, e => simp at e
      | .connect _ :: _, e => simp at e
      | .poll _ _ :: _, e => simp at e
      | .isConnected _ :: _, e => simp at e

end Conn
