import Verif.Alloc.Lemmas
/-
C22-C24: the allocator. `Reach base w` ranges over every history of allocations,
frees (of anything), release-all, limit changes and writes inside live blocks.
-/
namespace Alloc

/-! C22 -/

/-- Every operation runs without undefined behaviour (in particular without signed
overflow), in every reachable world. -/
theorem c22_safe {base : Nat} (hb : BaseOk base) {w : World} (hr : Reach base w) {op : Op}
    (hl : Legit base w op) : ∃ w', step base w op = .ok w' := by
  obtain ⟨w', h, _⟩ := step_inv hb (reach_inv hb hr) hl
  exact ⟨w', h⟩

/-- A block handed out is big enough, aligned (16 bytes; 32 in the arena), zero-filled,
disjoint from every live block and from the allocator's own records; the contents of all
live blocks are untouched. -/
theorem c22_block {base : Nat} (hb : BaseOk base) {w : World} (hr : Reach base w) {n : Int} {m : Ans}
    (hl : Legit base w (.alloc n m)) :
    ∃ p st' fs, alloc base w.st n m = .ok (p, st', fs) ∧
      (p ≠ 0 →
        0 ≤ n ∧ n ≤ (⟨p, n⟩ : Block).room ∧ p % 16 = 0 ∧
        (∀ i, i < (⟨p, n⟩ : Block).room → st'.mem (p + i) = 0) ∧
        (∀ b ∈ w.live, Disj p (⟨p, n⟩ : Block).room b.addr b.room) ∧
        (∀ nd ∈ st'.nodes, Disj p (⟨p, n⟩ : Block).room nd.naddr NODE)) ∧
      (∀ b ∈ w.live, ∀ i, i < b.room → st'.mem (b.addr + i) = w.st.mem (b.addr + i)) := by
  have h := reach_inv hb hr
  obtain ⟨p, st', fs, h1, hc⟩ := alloc_cases base w.st n m (allocated_nonneg h) h.acctLe h.limitOk
  have h' := inv_alloc hb h hl.2 hc
  refine ⟨p, st', fs, h1, ?_, ?_⟩
  · intro hp
    rw [if_neg hp] at h'
    have hw := h'.liveWhere ⟨p, n⟩ List.mem_cons_self
    have hd := (List.pairwise_cons.1 h'.liveDisj).1
    refine ⟨hw.1, alignedLen_ge n, ?_, ?_, fun b hb => hd b hb, ?_⟩
    · rcases hw.2 with k | ⟨nd, k1, k2, _⟩
      · have := k.2.2
        simp only [] at this
        omega
      · have := (h'.nodePos nd k1).2.1
        rw [k2] at this
        exact this
    · cases hc with
      | refused => exact absurd rfl hp
      | nomem _ => exact absurd rfl hp
      | notrack _ _ _ => exact absurd rfl hp
      | static hn hle =>
        intro i hi
        simp only [Block.room] at hi
        exact h.zero _ (by omega) (by omega)
      | heap _ q hn hlt hx hq _ _ =>
        intro i hi
        simp only []
        exact cleanup_in _ p (alignedLen n) (p + i) (by have := alignedLen_mod n; omega) (by omega) (by simp only [Block.room] at hi; omega)
    · intro nd hnd
      rcases hw.2 with k | ⟨nd', k1, k2, k3⟩
      · have := h'.ownedArena _ (mem_owned_naddr hnd)
        unfold Disj at this ⊢
        simp only [] at k this
        omega
      · -- the heap block is a tracked block; its range is in `owned`, as is every record
        cases hc with
        | refused => exact absurd rfl hp
        | nomem _ => exact absurd rfl hp
        | notrack _ _ _ => exact absurd rfl hp
        | static hn hle =>
          have := h'.ownedArena _ (mem_owned_naddr hnd)
          have := h.availLe
          unfold Disj at *
          simp only [Block.room, STATIC] at *
          omega
        | heap _ q hn hlt hx hq _ _ =>
          rcases List.mem_cons.1 hnd with rfl | hnd
          · exact (hl.2.2.1 q hq).2.2 p hx
          · exact (hl.2.1 p hx).2.2.2 _ (mem_owned_naddr hnd)
  · intro b hbl i hi
    have hlw := h.liveWhere b hbl
    obtain ⟨e1, _, _, _⟩ := limitGet_same w.st m
    have key : ∀ x, m.x = some x → ¬ (x ≤ b.addr + i ∧ b.addr + i < x + alignedLen n) := by
      intro x hx
      obtain ⟨_, _, x3, x4⟩ := hl.2.1 x hx
      rcases hlw.2 with k | ⟨nd, k1, k2, k3⟩
      · unfold Disj at x3
        omega
      · have := x4 _ (mem_owned_ptr k1)
        rw [k2, k3] at this
        unfold Disj at this
        simp only [Block.room] at hi
        omega
    cases hc with
    | refused => rfl
    | static _ _ => rfl
    | nomem _ => rw [e1]
    | notrack x _ hx =>
      simp only []
      rw [cleanup_out _ _ _ _ (key x hx), cleanup_out _ _ _ _ (key x hx), if_neg (key x hx)]
    | heap _ q _ _ hx _ _ _ =>
      simp only []
      rw [cleanup_out _ _ _ _ (key p hx), if_neg (key p hx)]

/-- At every moment the live blocks are pairwise disjoint, and disjoint from the allocator's records. -/
theorem c22_live_disjoint {base : Nat} (hb : BaseOk base) {w : World} (hr : Reach base w) :
    w.live.Pairwise (fun a b => Disj a.addr a.room b.addr b.room) ∧
    ∀ b ∈ w.live, ∀ nd ∈ w.st.nodes, Disj b.addr b.room nd.naddr NODE := by
  have h := reach_inv hb hr
  refine ⟨h.liveDisj, ?_⟩
  intro b hbl nd hnd
  rcases (h.liveWhere b hbl).2 with k | ⟨nd', k1, k2, k3⟩
  · have := h.ownedArena _ (mem_owned_naddr hnd)
    unfold Disj at this ⊢
    simp only [] at this
    omega
  · have hod := h.ownedDisj
    have key : ∀ (ns : List Node), (ns.flatMap (fun nd => [(nd.ptr, alignedLen nd.len), (nd.naddr, NODE)])).Pairwise RDisj →
        ∀ a ∈ ns, ∀ c ∈ ns, Disj a.ptr (alignedLen a.len) c.naddr NODE := by
      intro ns hp
      induction ns with
      | nil => simp
      | cons y ys ih =>
        simp only [List.flatMap_cons, List.cons_append, List.nil_append, List.pairwise_cons] at hp
        obtain ⟨p1, p2, p3⟩ := hp
        intro a ha c hc
        rcases List.mem_cons.1 ha with ea | ha' <;> rcases List.mem_cons.1 hc with ec | hc'
        · rw [ea, ec]; exact p1 (y.naddr, NODE) (by simp)
        · rw [ea]; exact p1 (c.naddr, NODE) (List.mem_cons_of_mem _ (List.mem_flatMap.2 ⟨c, hc', by simp⟩))
        · rw [ec]; exact disj_symm (p2 (a.ptr, alignedLen a.len) (List.mem_flatMap.2 ⟨a, ha', by simp⟩))
        · exact ih p3 a ha' c hc'
    have := key w.st.nodes hod nd' k1 nd hnd
    rw [k2, k3] at this
    exact this

/-- Freeing a block (or anything else) never changes the contents of another live block. -/
theorem c22_free_keeps_others {base : Nat} (hb : BaseOk base) {w : World} (hr : Reach base w) (p : Nat) :
    ∃ st' fs, free base w.st p = .ok (st', fs) ∧
      ∀ b ∈ w.live, b.addr ≠ p → ∀ i, i < b.room → st'.mem (b.addr + i) = w.st.mem (b.addr + i) := by
  have h := reach_inv hb hr
  obtain ⟨st', fs, h1, hc⟩ := free_cases base w.st p h.acct h.acctLe (fun x hx => (h.nodePos x hx).2.2)
  refine ⟨st', fs, h1, ?_⟩
  intro b hbl hne i hi
  cases hc with
  | nothing _ => rfl
  | heap nd a c hp hs hns hptr =>
    have hnd : nd ∈ w.st.nodes := by rw [hns]; simp
    have hd := live_disj h.liveDisj hbl (h.nodeLive nd hnd) (by
      intro e; rw [e] at hne; exact hne hptr)
    unfold BDisj Disj Block.room at hd
    simp only [Block.room] at hi
    simp only [] at hd ⊢
    rw [cleanup_out]
    omega

/-! C23 -/

/-- The account is exactly the sum of the sizes of the live blocks outside the arena. -/
theorem c23_accounting {base : Nat} (hb : BaseOk base) {w : World} (hr : Reach base w) :
    w.st.allocated = heapSum base w.live ∧ 0 ≤ w.st.allocated ∧ w.st.allocated ≤ llmax := by
  have h := reach_inv hb hr
  exact ⟨h.acct.trans h.heapEq, allocated_nonneg h, h.acctLe⟩

/-- Whatever makes the heap usage grow leaves it within the limit then in force. -/
theorem c23_limit {base : Nat} (hb : BaseOk base) {w w' : World} (hr : Reach base w) {op : Op}
    (hl : Legit base w op) (hs : step base w op = .ok w') :
    heapSum base w'.live ≤ heapSum base w.live ∨ heapSum base w'.live ≤ w'.st.limit := by
  have h := reach_inv hb hr
  have h' := reach_inv hb (Reach.step hr hl hs)
  rw [← h.acct.trans h.heapEq, ← h'.acct.trans h'.heapEq]
  cases op with
  | alloc n m =>
    obtain ⟨p, st', fs, h1, hc⟩ := alloc_cases base w.st n m (allocated_nonneg h) h.acctLe h.limitOk
    simp only [step, h1, Out.ok_bind, Out.pure_eq, Out.ok.injEq] at hs
    subst hs
    obtain ⟨_, _, e3, _⟩ := limitGet_same w.st m
    cases hc with
    | refused => exact Or.inl (Int.le_refl _)
    | static _ _ => exact Or.inl (Int.le_refl _)
    | nomem _ => refine Or.inl ?_; simp only [e3]; exact Int.le_refl _
    | notrack x _ _ => exact Or.inl (Int.le_refl _)
    | heap _ q _ _ _ _ hlim _ => exact Or.inr hlim
  | free p =>
    obtain ⟨st', fs, h1, hc⟩ := free_cases base w.st p h.acct h.acctLe (fun x hx => (h.nodePos x hx).2.2)
    simp only [step, h1, Out.ok_bind, Out.pure_eq, Out.ok.injEq] at hs
    subst hs
    refine Or.inl ?_
    cases hc with
    | nothing _ => exact Int.le_refl _
    | heap nd a c hp hs hns hptr =>
      have := (h.nodePos nd (by rw [hns]; simp)).2.2
      simp only []
      omega
  | freeall =>
    simp only [step, Out.ok.injEq] at hs
    subst hs
    exact Or.inl (allocated_nonneg h)
  | limit v =>
    simp only [step, Out.ok.injEq] at hs
    subst hs
    refine Or.inl ?_
    simp only [limitSet]
    split <;> exact Int.le_refl _
  | write a b =>
    simp only [step, Out.ok.injEq] at hs
    subst hs
    exact Or.inl (Int.le_refl _)

/-- The limit in force is the configured one: it changes only by configuring it (and, when
none was configured, by the first allocation that needs the heap). -/
theorem c23_limit_stays {base : Nat} {w w' : World} {op : Op} (hs : step base w op = .ok w')
    (hset : w.st.limit ≠ -1) :
    w'.st.limit = match op with
      | .limit v => if v < 0 then w.st.limit else v
      | _ => w.st.limit := by
  cases op with
  | alloc n m =>
    have hlg : limitGet w.st m = w.st := by unfold limitGet; rw [if_pos hset]
    have key : ∀ p st' fs, alloc base w.st n m = .ok (p, st', fs) → st'.limit = w.st.limit := by
      intro p st' fs h
      unfold alloc at h
      rw [hlg] at h
      split at h
      · cases h; rfl
      split at h
      · cases h; rfl
      simp only [] at h
      split at h
      · cases h; rfl
      split at h
      · cases h; rfl
      cases hr : subLL w.st.limit w.st.allocated with
      | ub => rw [hr] at h; cases h
      | ok r =>
        rw [hr, Out.ok_bind] at h
        split at h
        · cases h; rfl
        split at h
        · cases h; rfl
        split at h
        · cases h; rfl
        cases hr2 : addLL w.st.allocated n with
        | ub => rw [hr2] at h; cases h
        | ok r2 => rw [hr2, Out.ok_bind] at h; cases h; rfl
    simp only [step] at hs
    cases ha : alloc base w.st n m with
    | ub => rw [ha] at hs; cases hs
    | ok r =>
      obtain ⟨p, st', fs⟩ := r
      rw [ha, Out.ok_bind] at hs
      cases hs
      exact key p st' fs ha
  | free p =>
    simp only [step] at hs
    cases ha : free base w.st p with
    | ub => rw [ha] at hs; cases hs
    | ok r =>
      obtain ⟨st', fs⟩ := r
      rw [ha, Out.ok_bind] at hs
      cases hs
      unfold free at ha
      split at ha
      · cases ha; rfl
      split at ha
      · cases ha; rfl
      split at ha
      · cases ha; rfl
      rename_i nd ns _
      cases hr : subLL w.st.allocated nd.len with
      | ub => simp only [hr] at ha; cases ha
      | ok r => simp only [hr, Out.ok_bind] at ha; cases ha; rfl
  | freeall => simp only [step, Out.ok.injEq] at hs; subst hs; rfl
  | limit v =>
    simp only [step, Out.ok.injEq] at hs
    subst hs
    simp only [limitSet]
    split <;> rfl
  | write a b => simp only [step, Out.ok.injEq] at hs; subst hs; rfl

/-- When no limit was configured, the first allocation that needs the heap takes the process
limits for it: the smallest of the two soft limits that are known and positive, or the
largest `long long` if there is none. -/
theorem c23_first_limit {base : Nat} {w w' : World} {n : Int} {m : Ans} (hs : step base w (.alloc n m) = .ok w')
    (hunset : w.st.limit = -1) :
    w'.st.limit = -1 ∨
      ((w'.st.limit = llmax ∨ ∃ r > 0, (m.rlimitAs = some r ∨ m.rlimitData = some r) ∧ w'.st.limit = r) ∧
        w'.st.limit ≤ llmax ∧
        ∀ r > 0, m.rlimitAs = some r ∨ m.rlimitData = some r → w'.st.limit ≤ r) := by
  have key : ∀ p st' fs, alloc base w.st n m = .ok (p, st', fs) →
      st'.limit = -1 ∨ st'.limit = lower (lower llmax m.rlimitAs) m.rlimitData := by
    intro p st' fs h
    have hl : (limitGet w.st m).limit = lower (lower llmax m.rlimitAs) m.rlimitData := by
      unfold limitGet; rw [if_neg (by rw [hunset]; simp)]
    unfold alloc at h
    split at h
    · cases h; exact .inl hunset
    split at h
    · cases h; exact .inl hunset
    simp only [] at h
    split at h
    · cases h; exact .inl hunset
    split at h
    · cases h; exact .inr hl
    cases hr : subLL (limitGet w.st m).limit (limitGet w.st m).allocated with
    | ub => rw [hr] at h; cases h
    | ok r =>
      rw [hr, Out.ok_bind] at h
      split at h
      · cases h; exact .inr hl
      split at h
      · cases h; exact .inr hl
      split at h
      · cases h; exact .inr hl
      cases hr2 : addLL (limitGet w.st m).allocated n with
      | ub => rw [hr2] at h; cases h
      | ok r2 => rw [hr2, Out.ok_bind] at h; cases h; exact .inr hl
  simp only [step] at hs
  cases ha : alloc base w.st n m with
  | ub => rw [ha] at hs; cases hs
  | ok r =>
    obtain ⟨p, st', fs⟩ := r
    rw [ha, Out.ok_bind] at hs
    cases hs
    rcases key p st' fs ha with h | h
    · exact .inl h
    · refine .inr ?_
      dsimp only at h ⊢
      rw [h]
      clear h ha key
      cases h1 : m.rlimitAs <;> cases h2 : m.rlimitData <;> simp only [lower] <;> grind

/-- A request the limit has room for is granted whenever malloc provides the memory. -/
theorem c23_grants {base : Nat} (hb : BaseOk base) {w : World} (hr : Reach base w) {n : Int} {m : Ans}
    (hl : Legit base w (.alloc n m)) (hn : 0 ≤ n) (hn2 : n ≤ llmax - 31) (hset : w.st.limit ≠ -1)
    (hroom : heapSum base w.live + n ≤ w.st.limit) (hx : m.x ≠ none) (hq : m.node ≠ none) :
    ∃ p st', alloc base w.st n m = .ok (p, st', []) ∧ p ≠ 0 := by
  have h := reach_inv hb hr
  have h0 := c23_accounting hb hr
  obtain ⟨x, hx⟩ := Option.ne_none_iff_exists'.1 hx
  obtain ⟨q, hq⟩ := Option.ne_none_iff_exists'.1 hq
  have hlg : limitGet w.st m = w.st := by unfold limitGet; rw [if_pos hset]
  have hlo := h.limitOk
  unfold alloc
  rw [if_neg (by omega), if_neg (by rw [llmax_eq] at hn2; simp only [ALIGN]; omega)]
  simp only [hlg, hx, hq]
  by_cases h3 : alignedLen n ≤ w.st.avail
  · rw [if_pos h3]
    exact ⟨_, _, rfl, by have := hb.1; omega⟩
  · rw [if_neg h3, if_neg (by omega)]
    have hs : subLL w.st.limit w.st.allocated = .ok (w.st.limit - w.st.allocated) := by
      unfold subLL; rw [if_pos]; rw [llmin_eq]; omega
    have hs2 : addLL w.st.allocated n = .ok (w.st.allocated + n) := by
      unfold addLL; rw [if_pos]; rw [llmin_eq]; omega
    rw [hs, Out.ok_bind, if_neg (by omega), hs2]
    refine ⟨_, _, rfl, ?_⟩
    have := (hl.2.1 _ hx).1
    omega

/-- Negative and over-large requests are refused without any effect. -/
theorem c23_refuse (base : Nat) (st : St) (n : Int) (m : Ans) (h : n < 0 ∨ n > llmax - 31) :
    alloc base st n m = .ok (0, st, []) := by
  unfold alloc
  by_cases h1 : n < 0
  · rw [if_pos h1]
  · rw [if_neg h1, if_pos]
    rw [llmax_eq] at h
    simp only [ALIGN]
    omega

/-- A refused allocation leaves the arena, the account and the records as they were. -/
theorem c23_failure_no_effect {base : Nat} (hb : BaseOk base) {w : World} (hr : Reach base w) {n : Int} {m : Ans}
    (hl : Legit base w (.alloc n m)) {st' : St} {fs : Freed} (hf : alloc base w.st n m = .ok (0, st', fs)) :
    st'.avail = w.st.avail ∧ st'.allocated = w.st.allocated ∧ st'.nodes = w.st.nodes := by
  have h := reach_inv hb hr
  obtain ⟨p, st2, fs2, h1, hc⟩ := alloc_cases base w.st n m (allocated_nonneg h) h.acctLe h.limitOk
  rw [hf] at h1
  simp only [Out.ok.injEq, Prod.mk.injEq] at h1
  obtain ⟨rfl, rfl, rfl⟩ := h1
  obtain ⟨_, e2, e3, e4⟩ := limitGet_same w.st m
  generalize hz : (0 : Nat) = z at hc
  cases hc with
  | refused => exact ⟨rfl, rfl, rfl⟩
  | static hn hle => have := hb.1; omega
  | nomem _ => exact ⟨e2, e3, e4⟩
  | notrack x _ _ => exact ⟨e2, rfl, e4⟩
  | heap _ q _ _ hx _ _ _ =>
    subst hz
    have := (hl.2.1 _ hx).1
    omega

/-! C24 -/

/-- Everything ever passed to the C library's free() was all zero at that moment. -/
theorem c24_freed_zero {base : Nat} (hb : BaseOk base) {w : World} (hr : Reach base w) :
    ∀ f ∈ w.freed, ∀ b ∈ f, b = 0 := (reach_inv hb hr).freedZero

/-- Freeing a live block outside the arena wipes all of it and gives it back. -/
theorem c24_free {base : Nat} (hb : BaseOk base) {w : World} (hr : Reach base w) {b : Block}
    (hl : b ∈ w.live) (hs : isStatic base b.addr = false) :
    ∃ st', free base w.st b.addr = .ok (st', [List.replicate b.room 0]) ∧
      ∀ i, i < b.room → st'.mem (b.addr + i) = 0 := by
  have h := reach_inv hb hr
  obtain ⟨st', fs, h1, hc⟩ := free_cases base w.st b.addr h.acct h.acctLe (fun x hx => (h.nodePos x hx).2.2)
  rcases (h.liveWhere b hl).2 with k | ⟨nd, k1, k2, k3⟩
  · have := room_pos b
    have : isStatic base b.addr = true := by rw [isStatic_iff]; omega
    rw [hs] at this; cases this
  cases hc with
  | nothing hno =>
    rcases hno with hno | hno | hno
    · have := (h.nodePos nd k1).1; omega
    · rw [hs] at hno; cases hno
    · exact absurd k2 (hno nd k1)
  | heap nd' a c hp _ hns hptr =>
    have e := live_addr_inj h.liveDisj (h.nodeLive nd' (by rw [hns]; simp)) hl hptr
    have e2 : nd'.len = b.size := by rw [← e]
    have hm : alignedLen b.size % 8 = 0 := by have := alignedLen_mod b.size; omega
    rw [e2, bytesAt_cleanup _ _ _ hm] at h1
    refine ⟨_, h1, ?_⟩
    intro i hi
    simp only [e2]
    exact cleanup_in _ _ _ _ hm (by omega) (by simp only [Block.room] at hi; omega)

/-- Release-all wipes every live block, the whole arena (so also freed arena blocks), and
gives every heap block back wiped. -/
theorem c24_freeall {base : Nat} (hb : BaseOk base) {w : World} (hr : Reach base w) :
    (∀ b ∈ w.live, ∀ i, i < b.room → (freeall base w.st).1.mem (b.addr + i) = 0) ∧
    (∀ a, base ≤ a → a < base + STATIC → (freeall base w.st).1.mem a = 0) ∧
    (freeall base w.st).2.length = w.st.nodes.length := by
  have h := reach_inv hb hr
  have e : (freeall base w.st).1.mem = cleanup (freeNodes w.st.mem w.st.nodes).1 base STATIC := rfl
  refine ⟨?_, ?_, ?_⟩
  · intro b hbl i hi
    rw [e]
    rcases (h.liveWhere b hbl).2 with k | ⟨nd, k1, k2, k3⟩
    · exact cleanup_in _ _ _ _ (by simp [STATIC]) (by omega) (by omega)
    · apply cleanup_zero
      apply freeNodes_zero
      refine Or.inr ⟨nd, k1, by omega, ?_⟩
      rw [k2, k3]
      simp only [Block.room] at hi
      omega
  · intro a h1 h2
    rw [e]
    exact cleanup_in _ _ _ _ (by simp [STATIC]) h1 h2
  · show (freeNodes w.st.mem w.st.nodes).2.length = _
    generalize w.st.mem = mem
    induction w.st.nodes generalizing mem with
    | nil => rfl
    | cons x xs ih => simp only [freeNodes, List.length_cons, ih]

/-- Histories without a release-all. -/
inductive Steps (base : Nat) : World → World → Prop where
  | refl (w) : Steps base w w
  | step {w w1 w2 op} : Steps base w w1 → Legit base w1 op → op ≠ .freeall → step base w1 op = .ok w2 → Steps base w w2

theorem reach_steps {base : Nat} {w w' : World} (hr : Reach base w) (h : Steps base w w') : Reach base w' := by
  induction h with
  | refl => exact hr
  | step _ hl _ hs ih => exact Reach.step ih hl hs

theorem avail_mono {base : Nat} (hb : BaseOk base) {w w' : World} (hr : Reach base w) (h : Steps base w w') :
    w'.st.avail ≤ w.st.avail := by
  induction h with
  | refl => exact Nat.le_refl _
  | @step w1 w2 op hst hl hne hs ih =>
    refine Nat.le_trans ?_ ih
    have h := reach_inv hb (reach_steps hr hst)
    cases op with
    | alloc n m =>
      obtain ⟨p, st', fs, h1, hc⟩ := alloc_cases base w1.st n m (allocated_nonneg h) h.acctLe h.limitOk
      simp only [Alloc.step, h1, Out.ok_bind, Out.pure_eq, Out.ok.injEq] at hs
      subst hs
      obtain ⟨_, e2, _, _⟩ := limitGet_same w1.st m
      cases hc with
      | refused => exact Nat.le_refl _
      | static _ _ => simp only []; omega
      | nomem _ => simp only [e2]; exact Nat.le_refl _
      | notrack x _ _ => simp only [e2]; exact Nat.le_refl _
      | heap _ q _ _ _ _ hlim _ => simp only [e2]; exact Nat.le_refl _
    | free p =>
      obtain ⟨st', fs, h1, hc⟩ := free_cases base w1.st p h.acct h.acctLe (fun x hx => (h.nodePos x hx).2.2)
      simp only [Alloc.step, h1, Out.ok_bind, Out.pure_eq, Out.ok.injEq] at hs
      subst hs
      cases hc <;> exact Nat.le_refl _
    | freeall => exact absurd rfl hne
    | limit v =>
      simp only [Alloc.step, Out.ok.injEq] at hs
      subst hs
      simp only [limitSet]
      split <;> exact Nat.le_refl _
    | write a b =>
      simp only [Alloc.step, Out.ok.injEq] at hs
      subst hs
      exact Nat.le_refl _

/-- A block of the arena is never handed out again (freed or not) before release-all, which
wipes it: after any history without release-all, a new block does not overlap it. -/
theorem c24_arena_not_reused {base : Nat} (hb : BaseOk base) {w w' : World} (hr : Reach base w) {b : Block}
    (hbl : b ∈ w.live) (hst : isStatic base b.addr = true) (hs : Steps base w w') {n : Int} {m : Ans}
    (hl : Legit base w' (.alloc n m)) {p : Nat} {st' : St} {fs : Freed}
    (ha : alloc base w'.st n m = .ok (p, st', fs)) (hp : p ≠ 0) :
    Disj p (alignedLen n) b.addr b.room := by
  have h := reach_inv hb hr
  have h' := reach_inv hb (reach_steps hr hs)
  have hav := avail_mono hb hr hs
  have hbw : base + w.st.avail ≤ b.addr ∧ b.addr + b.room ≤ base + STATIC := by
    rcases (h.liveWhere b hbl).2 with k | ⟨nd, k1, k2, k3⟩
    · exact ⟨k.1, k.2.1⟩
    · have := node_not_static h k1
      rw [isStatic_iff] at hst
      rw [k2] at this
      exact absurd hst this
  obtain ⟨p2, st2, fs2, h1, hc⟩ := alloc_cases base w'.st n m (allocated_nonneg h') h'.acctLe h'.limitOk
  rw [ha] at h1
  simp only [Out.ok.injEq, Prod.mk.injEq] at h1
  obtain ⟨rfl, rfl, rfl⟩ := h1
  cases hc with
  | refused => exact absurd rfl hp
  | nomem _ => exact absurd rfl hp
  | notrack _ _ _ => exact absurd rfl hp
  | static hn hle => unfold Disj; omega
  | heap _ q hn hlt hx hq _ _ =>
    have := (hl.2.1 _ hx).2.2.1
    unfold Disj at *
    omega

/-- What the code does not do: freeing an arena block leaves its contents in place until
release-all (alloc.c:308). -/
theorem c24_arena_free_keeps_contents (base : Nat) (st : St) (p : Nat) (h : isStatic base p = true) :
    free base st p = .ok (st, []) := by
  unfold free
  by_cases h0 : p = 0
  · rw [if_pos h0]
  · rw [if_neg h0, if_pos h]

/-! Concrete cases -/

/-- An environment whose malloc works: blocks at 2^20 and 2^22. -/
def demoAns : Ans := ⟨some 1048576, fun _ => 0xAA, some 4194304, none, some 1000000⟩
/-- Memory with a zero arena at 65536 and garbage elsewhere. -/
def demoMem : Mem := fun a => if a < 65536 ∨ 65536 + STATIC ≤ a then 0x55 else 0

/-- A history: 40 bytes from the arena, a write, 131072 bytes from the heap, a write, free. -/
def demoOps : List Op :=
  [.alloc 40 demoAns, .write (65536 + STATIC - 64) 7, .alloc 131072 demoAns, .write 1048580 9]

def runOps (base : Nat) (w : World) : List Op → Out World
  | [] => .ok w
  | op :: ops =>
    match step base w op with
    | .ub => .ub
    | .ok w => runOps base w ops

/-- The history runs; both blocks are live, the secret byte is there and the account is the heap block's size. -/
example : ∃ w, runOps 65536 ⟨St.init demoMem, [], []⟩ demoOps = .ok w ∧
    w.live = [⟨1048576, 131072⟩, ⟨65536 + STATIC - 64, 40⟩] ∧
    w.st.allocated = 131072 ∧ w.st.limit = 1000000 ∧ w.st.mem 1048580 = 9 ∧ w.st.mem 1048576 = 0 :=
  ⟨_, rfl, by decide, by decide, by decide, by decide, by decide⟩

/-- It is a reachable world (so the theorems above apply to it). -/
theorem demo_reach : ∃ w, Reach 65536 w ∧ w.live = [⟨1048576, 131072⟩, ⟨65536 + STATIC - 64, 40⟩] ∧
    w.st.mem 1048580 = 9 := by
  have r0 : Reach 65536 ⟨St.init demoMem, [], []⟩ := Reach.init _ (by
    intro a h1 h2
    unfold demoMem
    rw [if_neg (by omega)])
  have mok : ∀ st : St, st.nodes = [] → ∀ n, n = 40 ∨ n = 131072 → MallocOk 65536 st n demoAns := by
    intro st hst n hn
    have ho : owned st = [] := by unfold owned; rw [hst]; rfl
    refine ⟨?_, ?_, ?_, ?_⟩
    · intro x hx
      cases hx
      refine ⟨by decide, by decide, ?_, by rw [ho]; simp⟩
      rcases hn with rfl | rfl <;> (unfold Disj; decide)
    · intro q hq
      cases hq
      refine ⟨by unfold Disj; decide, by rw [ho]; simp, ?_⟩
      intro x hx
      cases hx
      rcases hn with rfl | rfl <;> (unfold Disj; decide)
    · intro r hr; cases hr
    · intro r hr; cases hr; unfold IsLL; decide
  have r1 := Reach.step (op := .alloc 40 demoAns) r0 ⟨by unfold IsLL; decide, mok _ rfl _ (Or.inl rfl)⟩ rfl
  have r2 := Reach.step (op := .write (65536 + STATIC - 64) 7) r1 ⟨⟨65536 + STATIC - 64, 40⟩, by simp [STATIC, alignedLen, ALIGN, St.init], by decide⟩ rfl
  have r3 := Reach.step (op := .alloc 131072 demoAns) r2 ⟨by unfold IsLL; decide, mok _ rfl _ (Or.inr rfl)⟩ rfl
  have r4 := Reach.step (op := .write 1048580 9) r3 ⟨⟨1048576, 131072⟩, List.mem_cons_self, by decide⟩ rfl
  exact ⟨_, r4, by decide, by decide⟩

example : BaseOk 65536 := by unfold BaseOk; decide

/-- The heap block of that world is freed wiped. -/
example : ∃ w st', Reach 65536 w ∧ (∃ i, i < 131072 ∧ w.st.mem (1048576 + i) ≠ 0) ∧
    free 65536 w.st 1048576 = .ok (st', [List.replicate (Block.room ⟨1048576, 131072⟩) 0]) := by
  obtain ⟨w, h1, h2, h3⟩ := demo_reach
  obtain ⟨st', h4, _⟩ := c24_free (base := 65536) (by unfold BaseOk; decide) h1
    (b := ⟨1048576, 131072⟩) (by rw [h2]; exact List.mem_cons_self) (by decide)
  exact ⟨w, st', h1, ⟨4, by decide, by rw [h3]; decide⟩, h4⟩

/-- A soft limit of 0 is not taken, the smaller of the others is. -/
example : (match runOps 65536 ⟨St.init demoMem, [], []⟩
      [.alloc 131072 demoAns, .alloc 131073 { demoAns with rlimitAs := some 500000, rlimitData := some 0 }] with
    | .ok w => w.st.limit | .ub => 0) = 500000 := by decide

/-- With a limit of 100000 the same request is refused. -/
example : (match runOps 65536 ⟨St.init demoMem, [], []⟩ [.limit 100000, .alloc 131072 demoAns, .alloc 131073 demoAns] with
    | .ok w => w.live | .ub => [⟨1, 1⟩]) = [⟨65536, 131072⟩] := by decide

end Alloc
