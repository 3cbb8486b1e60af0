import Verif.Alloc.Spec
namespace Alloc

theorem alignedLen_pos (n : Int) : 32 ≤ alignedLen n := by
  unfold alignedLen ALIGN; split <;> omega

theorem alignedLen_mod (n : Int) : alignedLen n % 32 = 0 := by
  unfold alignedLen ALIGN; split <;> omega

theorem alignedLen_ge (n : Int) : n ≤ alignedLen n := by
  unfold alignedLen ALIGN; split <;> omega

theorem cleanup_in (mem : Mem) (x n a : Nat) (hn : n % 8 = 0) (h1 : x ≤ a) (h2 : a < x + n) :
    cleanup mem x n a = 0 := by
  unfold cleanup; rw [if_pos]; omega

theorem cleanup_out (mem : Mem) (x n a : Nat) (h : ¬ (x ≤ a ∧ a < x + n)) :
    cleanup mem x n a = mem a := by
  unfold cleanup; rw [if_neg]; omega

theorem cleanup_zero (mem : Mem) (x n a : Nat) (h : mem a = 0) : cleanup mem x n a = 0 := by
  unfold cleanup; split
  · rfl
  · exact h

theorem bytesAt_cleanup (mem : Mem) (x n : Nat) (hn : n % 8 = 0) :
    bytesAt (cleanup mem x n) x n = List.replicate n 0 := by
  apply List.ext_getElem
  · simp [bytesAt]
  · intro i h1 h2
    simp only [bytesAt, List.length_map, List.length_range] at h1
    simp only [bytesAt, List.getElem_map, List.getElem_range, List.getElem_replicate]
    exact cleanup_in _ _ _ _ hn (by omega) (by omega)

theorem remove_some {p : Nat} {ns : List Node} {nd : Node} {ns' : List Node}
    (h : remove p ns = some (nd, ns')) : nd.ptr = p ∧
      ∃ a b, ns = a ++ nd :: b ∧ ns' = a ++ b ∧ ∀ x ∈ a, x.ptr ≠ p := by
  induction ns generalizing nd ns' with
  | nil => simp [remove] at h
  | cons y ys ih =>
    unfold remove at h
    split at h
    · rename_i hp
      simp only [Option.some.injEq, Prod.mk.injEq] at h
      obtain ⟨rfl, rfl⟩ := h
      exact ⟨hp, [], ys, by simp⟩
    · rename_i hp
      split at h
      · simp at h
      · rename_i x zs hr
        simp only [Option.some.injEq, Prod.mk.injEq] at h
        obtain ⟨rfl, rfl⟩ := h
        obtain ⟨h1, a, b, h2, h3, h4⟩ := ih hr
        refine ⟨h1, y :: a, b, by simp [h2], by simp [h3], ?_⟩
        intro z hz
        rcases List.mem_cons.1 hz with rfl | hz
        · exact hp
        · exact h4 z hz

theorem remove_none {p : Nat} {ns : List Node} (h : remove p ns = none) :
    ∀ x ∈ ns, x.ptr ≠ p := by
  induction ns with
  | nil => simp
  | cons y ys ih =>
    unfold remove at h
    split at h
    · simp at h
    · rename_i hp
      split at h
      · rename_i hr
        intro z hz
        rcases List.mem_cons.1 hz with rfl | hz
        · exact hp
        · exact ih hr z hz
      · simp at h

/-- Sum of the tracked sizes. -/
def total : List Node → Int
  | [] => 0
  | nd :: ns => nd.len + total ns

theorem total_append (a b : List Node) : total (a ++ b) = total a + total b := by
  induction a with
  | nil => simp [total]
  | cons x xs ih => simp only [List.cons_append, total, ih]; omega

theorem total_nonneg (ns : List Node) (h : ∀ x ∈ ns, 0 ≤ x.len) : 0 ≤ total ns := by
  induction ns with
  | nil => simp [total]
  | cons x xs ih =>
    have h1 := h x (by simp)
    have h2 := ih (fun y hy => h y (by simp [hy]))
    simp only [total]; omega

theorem disj_symm {a n b m : Nat} (h : Disj a n b m) : Disj b m a n := by
  unfold Disj at *; omega

def RDisj (r s : Nat × Nat) : Prop := Disj r.1 r.2 s.1 s.2
def BDisj (a b : Block) : Prop := Disj a.addr a.room b.addr b.room

/-- What holds in every reachable world. -/
structure Inv (base : Nat) (w : World) : Prop where
  availLe : w.st.avail ≤ STATIC
  availMod : w.st.avail % 32 = 0
  zero : ∀ a, base ≤ a → a < base + w.st.avail → w.st.mem a = 0
  ownedDisj : (owned w.st).Pairwise RDisj
  ownedArena : ∀ r ∈ owned w.st, Disj r.1 r.2 base STATIC
  nodePos : ∀ nd ∈ w.st.nodes, 0 < nd.ptr ∧ nd.ptr % 16 = 0 ∧ 0 ≤ nd.len
  liveWhere : ∀ b ∈ w.live, 0 ≤ b.size ∧
    ((base + w.st.avail ≤ b.addr ∧ b.addr + b.room ≤ base + STATIC ∧ b.addr % 32 = 0) ∨
     ∃ nd ∈ w.st.nodes, nd.ptr = b.addr ∧ nd.len = b.size)
  liveDisj : w.live.Pairwise BDisj
  nodeLive : ∀ nd ∈ w.st.nodes, ⟨nd.ptr, nd.len⟩ ∈ w.live
  acct : w.st.allocated = total w.st.nodes
  acctLe : w.st.allocated ≤ llmax
  limitOk : w.st.limit = -1 ∨ (0 ≤ w.st.limit ∧ w.st.limit ≤ llmax)
  freedZero : ∀ f ∈ w.freed, ∀ b ∈ f, b = 0
  heapEq : total w.st.nodes = heapSum base w.live

theorem mem_owned_ptr {st : St} {nd : Node} (h : nd ∈ st.nodes) :
    (nd.ptr, alignedLen nd.len) ∈ owned st := by
  simp only [owned, List.mem_flatMap]
  exact ⟨nd, h, by simp⟩

theorem mem_owned_naddr {st : St} {nd : Node} (h : nd ∈ st.nodes) :
    (nd.naddr, NODE) ∈ owned st := by
  simp only [owned, List.mem_flatMap]
  exact ⟨nd, h, by simp⟩

theorem replicate_zero (n : Nat) : ∀ b ∈ List.replicate n (0 : Byte), b = 0 := by
  intro b hb
  exact (List.mem_replicate.1 hb).2

theorem limitGet_same (st : St) (m : Ans) : (limitGet st m).mem = st.mem ∧
    (limitGet st m).avail = st.avail ∧ (limitGet st m).allocated = st.allocated ∧
    (limitGet st m).nodes = st.nodes := by
  unfold limitGet; split <;> simp

theorem lower_ok {l : Int} {r : Option Int} (hl : 0 ≤ l ∧ l ≤ llmax) :
    0 ≤ lower l r ∧ lower l r ≤ l := by
  unfold lower
  split
  · omega
  · split <;> omega

theorem llmax_eq : llmax = 9223372036854775807 := by decide
theorem llmin_eq : llmin = -9223372036854775808 := by decide

theorem limitGet_ok (st : St) (m : Ans) (h : st.limit = -1 ∨ (0 ≤ st.limit ∧ st.limit ≤ llmax)) :
    0 ≤ (limitGet st m).limit ∧ (limitGet st m).limit ≤ llmax := by
  unfold limitGet
  split
  · rename_i hne
    omega
  · have h0 : (0 : Int) ≤ llmax ∧ llmax ≤ llmax := by rw [llmax_eq]; omega
    have h1 := lower_ok (r := m.rlimitAs) h0
    have h2 := lower_ok (r := m.rlimitData) (l := lower llmax m.rlimitAs) (by omega)
    simp only []
    omega

theorem isStatic_iff (base p : Nat) : isStatic base p = true ↔ base ≤ p ∧ p < base + STATIC := by
  simp [isStatic]

/-- A cut of what `alloc` can do. -/
inductive AllocCase (base : Nat) (st : St) (n : Int) (m : Ans) : Nat → St → Freed → Prop where
  | refused : AllocCase base st n m 0 st []
  | static : 0 ≤ n → alignedLen n ≤ st.avail →
      AllocCase base st n m (base + (st.avail - alignedLen n)) { st with avail := st.avail - alignedLen n } []
  | nomem : ¬ alignedLen n ≤ st.avail → AllocCase base st n m 0 (limitGet st m) []
  | notrack (x : Nat) : ¬ alignedLen n ≤ st.avail → m.x = some x → 
      AllocCase base st n m 0
        { limitGet st m with allocated := st.allocated, mem := cleanup (cleanup (fun a => if x ≤ a ∧ a < x + alignedLen n then m.fill a else st.mem a)
            x (alignedLen n)) x (alignedLen n) }
        [bytesAt (cleanup (cleanup (fun a => if x ≤ a ∧ a < x + alignedLen n then m.fill a else st.mem a)
            x (alignedLen n)) x (alignedLen n)) x (alignedLen n)]
  | heap (x q : Nat) : 0 ≤ n → ¬ alignedLen n ≤ st.avail → m.x = some x → m.node = some q →
      st.allocated + n ≤ (limitGet st m).limit → (limitGet st m).limit ≤ llmax →
      AllocCase base st n m x
        { limitGet st m with
          mem := cleanup (fun a => if x ≤ a ∧ a < x + alignedLen n then m.fill a else st.mem a) x (alignedLen n),
          allocated := st.allocated + n, nodes := ⟨x, n, q⟩ :: st.nodes } []

theorem alloc_cases (base : Nat) (st : St) (n : Int) (m : Ans)
    (ha : 0 ≤ st.allocated) (ha2 : st.allocated ≤ llmax)
    (hl : st.limit = -1 ∨ (0 ≤ st.limit ∧ st.limit ≤ llmax)) :
    ∃ p st' fs, alloc base st n m = .ok (p, st', fs) ∧ AllocCase base st n m p st' fs := by
  unfold alloc
  obtain ⟨e1, e2, e3, e4⟩ := limitGet_same st m
  obtain ⟨l1, l2⟩ := limitGet_ok st m hl
  by_cases h1 : n < 0
  · rw [if_pos h1]; exact ⟨_, _, _, rfl, .refused⟩
  rw [if_neg h1]
  by_cases h2 : n.toNat > (2 ^ 63 - 1) - (ALIGN - 1)
  · rw [if_pos h2]; exact ⟨_, _, _, rfl, .refused⟩
  rw [if_neg h2]
  simp only []
  by_cases h3 : alignedLen n ≤ st.avail
  · rw [if_pos h3]; exact ⟨_, _, _, rfl, .static (by omega) h3⟩
  rw [if_neg h3]
  by_cases h4 : (limitGet st m).allocated > (limitGet st m).limit
  · rw [if_pos h4]; exact ⟨_, _, _, rfl, .nomem h3⟩
  rw [if_neg h4]
  rw [e3] at h4 ⊢
  have hs : subLL (limitGet st m).limit st.allocated = .ok ((limitGet st m).limit - st.allocated) := by
    unfold subLL; rw [if_pos]; rw [llmin_eq]; omega
  rw [hs, Out.ok_bind]
  by_cases h5 : n > (limitGet st m).limit - st.allocated
  · rw [if_pos h5]; exact ⟨_, _, _, rfl, .nomem h3⟩
  rw [if_neg h5]
  cases hx : m.x with
  | none => exact ⟨_, _, _, rfl, .nomem h3⟩
  | some x =>
    simp only []
    cases hq : m.node with
    | none =>
      rw [e1]
      exact ⟨_, _, _, rfl, .notrack x h3 hx⟩
    | some q =>
      simp only []
      have hs : addLL st.allocated n = .ok (st.allocated + n) := by
        unfold addLL; rw [if_pos]; rw [llmin_eq]; omega
      rw [hs, Out.ok_bind, e1, e4]
      exact ⟨_, _, _, rfl, .heap x q (by omega) h3 hx hq (by omega) l2⟩

theorem allocated_nonneg {base w} (h : Inv base w) : 0 ≤ w.st.allocated := by
  rw [h.acct]
  exact total_nonneg _ (fun x hx => (h.nodePos x hx).2.2)

theorem room_pos (b : Block) : 32 ≤ b.room := alignedLen_pos _

theorem inv_alloc {base : Nat} {w : World} (hb : BaseOk base) (h : Inv base w) {n : Int} {m : Ans}
    (hm : MallocOk base w.st n m) {p : Nat} {st' : St} {fs : Freed}
    (hc : AllocCase base w.st n m p st' fs) :
    Inv base ⟨st', if p = 0 then w.live else ⟨p, n⟩ :: w.live, w.freed ++ fs⟩ := by
  obtain ⟨e1, e2, e3, e4⟩ := limitGet_same w.st m
  have lok := limitGet_ok w.st m h.limitOk
  obtain ⟨hx, hq, _, _⟩ := hm
  have hal := alignedLen_pos n
  have hmod := alignedLen_mod n
  cases hc with
  | refused =>
    simp only [if_pos, List.append_nil]
    exact h
  | static hn hle =>
    obtain ⟨b1, b2⟩ := hb
    have := h.availLe
    have hav := h.availMod
    rw [if_neg (by omega), List.append_nil]
    refine ⟨by simp only []; omega, by simp only []; omega, ?_, h.ownedDisj, h.ownedArena, h.nodePos, ?_, ?_, ?_, h.acct,
      h.acctLe, h.limitOk, h.freedZero, ?hp⟩
    case hp =>
      simp only [heapSum]
      rw [if_pos, Int.zero_add]
      · exact h.heapEq
      · rw [isStatic_iff]; simp only [STATIC] at *; omega
    · intro a h1 h2
      simp only [] at h2
      exact h.zero a h1 (by omega)
    · intro b hb
      simp only [List.mem_cons] at hb
      rcases hb with rfl | hb
      · refine ⟨hn, Or.inl ⟨by simp, ?_, ?_⟩⟩
        · simp only [Block.room]; omega
        · simp only []; omega
      · obtain ⟨k1, k2⟩ := h.liveWhere b hb
        refine ⟨k1, ?_⟩
        rcases k2 with k2 | k2
        · exact Or.inl ⟨by simp only []; omega, k2.2⟩
        · exact Or.inr k2
    · refine List.Pairwise.cons ?_ h.liveDisj
      intro b hb
      obtain ⟨k1, k2⟩ := h.liveWhere b hb
      rcases k2 with k2 | ⟨nd, k2, k3, k4⟩
      · refine Or.inl ?_
        simp only [Block.room]
        omega
      · have := h.ownedArena _ (mem_owned_ptr k2)
        simp only [k3, k4] at this
        unfold BDisj Block.room Disj
        unfold Disj at this
        simp only []
        omega
    · intro nd hnd
      exact List.mem_cons_of_mem _ (h.nodeLive nd hnd)
  | nomem hlt =>
    simp only [if_pos, List.append_nil]
    have ho : owned (limitGet w.st m) = owned w.st := by unfold owned; rw [e4]
    refine ⟨by simp only [e2]; exact h.availLe, by simp only [e2]; exact h.availMod, ?_, ?_, ?_, ?_, ?_, h.liveDisj, ?_, ?_, ?_, ?_,
      h.freedZero, by simp only [e4]; exact h.heapEq⟩
    · simp only [e1, e2]; exact h.zero
    · simp only [ho]; exact h.ownedDisj
    · simp only [ho]; exact h.ownedArena
    · simp only [e4]; exact h.nodePos
    · simp only [e2, e4]; exact h.liveWhere
    · simp only [e4]; exact h.nodeLive
    · simp only [e3, e4]; exact h.acct
    · simp only [e3]; exact h.acctLe
    · exact Or.inr lok
  | notrack x hlt hxs =>
    simp only [if_pos]
    obtain ⟨x1, x2, x3, x4⟩ := hx x hxs
    refine ⟨by simp only [e2]; exact h.availLe, by simp only [e2]; exact h.availMod, ?_, ?_, ?_, ?_, ?_, h.liveDisj, ?_, ?_, ?_, ?_, ?_, by simp only [e4]; exact h.heapEq⟩
    · simp only [e2]
      intro a h1 h2
      have := h.availLe
      unfold Disj at x3
      have hout : ¬ (x ≤ a ∧ a < x + alignedLen n) := by omega
      rw [cleanup_out _ _ _ _ hout, cleanup_out _ _ _ _ hout]
      rw [if_neg hout]
      exact h.zero a h1 h2
    · simp only [owned, e4]; exact h.ownedDisj
    · simp only [owned, e4]; exact h.ownedArena
    · simp only [e4]; exact h.nodePos
    · simp only [e2, e4]; exact h.liveWhere
    · simp only [e4]; exact h.nodeLive
    · simp only [e3, e4]; exact h.acct
    · simp only [e3]; exact h.acctLe
    · exact Or.inr lok
    · intro f hf b hb
      simp only [List.mem_append, List.mem_singleton] at hf
      rcases hf with hf | rfl
      · exact h.freedZero f hf b hb
      · rw [bytesAt_cleanup _ _ _ (by omega)] at hb
        exact replicate_zero _ b hb
  | heap p q hn hlt hxs hqs hlim hlim2 =>
    obtain ⟨x1, x2, x3, x4⟩ := hx p hxs
    obtain ⟨q1, q2, q3⟩ := hq q hqs
    have q3 := q3 p hxs
    rw [if_neg (by omega), List.append_nil]
    have ho : owned { limitGet w.st m with
          mem := cleanup (fun a => if p ≤ a ∧ a < p + alignedLen n then m.fill a else w.st.mem a) p (alignedLen n),
          allocated := w.st.allocated + n, nodes := ⟨p, n, q⟩ :: w.st.nodes } =
        (p, alignedLen n) :: (q, NODE) :: owned w.st := by
      simp [owned]
    refine ⟨by simp only [e2]; exact h.availLe, by simp only [e2]; exact h.availMod, ?_, ?_, ?_, ?_, ?_, ?_, ?_, ?_, ?_, ?_, h.freedZero, ?hp⟩
    case hp =>
      simp only [heapSum, total]
      rw [if_neg, h.heapEq]
      rw [isStatic_iff]
      unfold Disj at x3
      simp only [STATIC] at *
      omega
    · simp only [e2]
      intro a h1 h2
      have := h.availLe
      unfold Disj at x3
      have hout : ¬ (p ≤ a ∧ a < p + alignedLen n) := by omega
      rw [cleanup_out _ _ _ _ hout, if_neg hout]
      exact h.zero a h1 h2
    · rw [ho]
      refine List.Pairwise.cons ?_ (List.Pairwise.cons ?_ h.ownedDisj)
      · intro r hr
        rcases List.mem_cons.1 hr with rfl | hr
        · exact q3
        · exact x4 r hr
      · exact fun r hr => q2 r hr
    · rw [ho]
      intro r hr
      rcases List.mem_cons.1 hr with rfl | hr
      · exact x3
      rcases List.mem_cons.1 hr with rfl | hr
      · exact q1
      · exact h.ownedArena r hr
    · intro nd hnd
      rcases List.mem_cons.1 hnd with rfl | hnd
      · exact ⟨x1, x2, hn⟩
      · exact h.nodePos nd hnd
    · intro b hb
      rcases List.mem_cons.1 hb with rfl | hb
      · exact ⟨hn, Or.inr ⟨_, List.mem_cons_self, rfl, rfl⟩⟩
      · obtain ⟨k1, k2⟩ := h.liveWhere b hb
        refine ⟨k1, ?_⟩
        rcases k2 with k2 | ⟨nd, k2, k3⟩
        · refine Or.inl ?_
          simp only [e2]
          exact k2
        · exact Or.inr ⟨nd, List.mem_cons_of_mem _ k2, k3⟩
    · refine List.Pairwise.cons ?_ h.liveDisj
      intro b hb
      obtain ⟨k1, k2⟩ := h.liveWhere b hb
      rcases k2 with k2 | ⟨nd, k2, k3, k4⟩
      · unfold BDisj Block.room Disj
        unfold Disj at x3
        simp only [Block.room] at k2 ⊢
        omega
      · have := x4 _ (mem_owned_ptr k2)
        simp only [k3, k4] at this
        exact this
    · intro nd hnd
      rcases List.mem_cons.1 hnd with rfl | hnd
      · exact List.mem_cons_self
      · exact List.mem_cons_of_mem _ (h.nodeLive nd hnd)
    · simp only [total, h.acct]; omega
    · simp only []; omega
    · exact Or.inr lok

/-- Two live blocks at the same address are the same block. -/
theorem live_addr_inj {l : List Block} (h : l.Pairwise BDisj) {a b : Block} (ha : a ∈ l) (hb : b ∈ l)
    (e : a.addr = b.addr) : a = b := by
  induction h with
  | nil => simp at ha
  | cons hx hp ih =>
    rcases List.mem_cons.1 ha with ea | ha' <;> rcases List.mem_cons.1 hb with eb | hb'
    · rw [ea, eb]
    · subst ea
      have := hx b hb'
      unfold BDisj Disj at this
      have := room_pos a; have := room_pos b
      omega
    · subst eb
      have := hx a ha'
      unfold BDisj Disj at this
      have := room_pos a; have := room_pos b
      omega
    · exact ih ha' hb'

theorem live_disj {l : List Block} (h : l.Pairwise BDisj) {a b : Block} (ha : a ∈ l) (hb : b ∈ l)
    (e : a ≠ b) : BDisj a b := by
  induction h with
  | nil => simp at ha
  | cons hx hp ih =>
    rcases List.mem_cons.1 ha with ea | ha' <;> rcases List.mem_cons.1 hb with eb | hb'
    · exact absurd (ea.trans eb.symm) e
    · subst ea; exact hx b hb'
    · subst eb; exact disj_symm (hx a ha')
    · exact ih ha' hb'

theorem heapSum_filter_none (base p : Nat) (l : List Block)
    (h : ∀ b ∈ l, isStatic base b.addr = false → b.addr ≠ p) :
    heapSum base (l.filter (fun b => b.addr ≠ p)) = heapSum base l := by
  induction l with
  | nil => rfl
  | cons x xs ih =>
    have ih := ih (fun b hb => h b (by simp [hb]))
    by_cases e : x.addr = p
    · rw [List.filter_cons_of_neg (by simp [e]), ih]
      simp only [heapSum]
      rw [if_pos, Int.zero_add]
      cases hs : isStatic base x.addr with
      | true => rfl
      | false => exact absurd e (h x (by simp) hs)
    · rw [List.filter_cons_of_pos (by simp [e])]
      simp only [heapSum, ih]

theorem heapSum_filter_one (base : Nat) {p : Nat} {l : List Block} (h : l.Pairwise BDisj) {b : Block} (hb : b ∈ l)
    (hs : isStatic base b.addr = false) (hp : b.addr = p) :
    heapSum base (l.filter (fun b => b.addr ≠ p)) = heapSum base l - b.size := by
  subst hp
  induction h with
  | nil => simp at hb
  | @cons x xs hx hp ih =>
    rcases List.mem_cons.1 hb with rfl | hb
    · rw [List.filter_cons_of_neg (by simp)]
      have hf : xs.filter (fun c => decide (c.addr ≠ b.addr)) = xs := by
        apply List.filter_eq_self.2
        intro c hc
        have h1 := hx c hc
        have := room_pos b; have := room_pos c
        unfold BDisj Disj at h1
        simp only [ne_eq, decide_not, Bool.not_eq_eq_eq_not, Bool.not_true, decide_eq_false_iff_not]
        omega
      rw [hf]
      simp only [heapSum, hs]
      simp
      omega
    · have h1 := hx b hb
      have := room_pos x; have := room_pos b
      unfold BDisj Disj at h1
      rw [List.filter_cons_of_pos (by simp; omega)]
      simp only [heapSum]
      rw [ih hb]
      omega

inductive FreeCase (base : Nat) (st : St) (p : Nat) : St → Freed → Prop where
  | nothing : (p = 0 ∨ isStatic base p = true ∨ ∀ nd ∈ st.nodes, nd.ptr ≠ p) →
      FreeCase base st p st []
  | heap (nd : Node) (a b : List Node) : 0 < p → isStatic base p = false →
      st.nodes = a ++ nd :: b → nd.ptr = p →
      FreeCase base st p
        { st with mem := cleanup st.mem p (alignedLen nd.len), allocated := st.allocated - nd.len,
                  nodes := a ++ b }
        [bytesAt (cleanup st.mem p (alignedLen nd.len)) p (alignedLen nd.len)]

theorem free_cases (base : Nat) (st : St) (p : Nat) (hacc : st.allocated = total st.nodes)
    (hmax : st.allocated ≤ llmax) (hpos : ∀ nd ∈ st.nodes, 0 ≤ nd.len) :
    ∃ st' fs, free base st p = .ok (st', fs) ∧ FreeCase base st p st' fs := by
  unfold free
  by_cases h1 : p = 0
  · rw [if_pos h1]; exact ⟨_, _, rfl, .nothing (Or.inl h1)⟩
  rw [if_neg h1]
  by_cases h2 : isStatic base p = true
  · rw [if_pos h2]; exact ⟨_, _, rfl, .nothing (Or.inr (Or.inl h2))⟩
  rw [if_neg h2]
  cases hr : remove p st.nodes with
  | none => exact ⟨_, _, rfl, .nothing (Or.inr (Or.inr (remove_none hr)))⟩
  | some r =>
    obtain ⟨nd, ns⟩ := r
    obtain ⟨k1, a, b, k2, k3, k4⟩ := remove_some hr
    simp only []
    have hs : subLL st.allocated nd.len = .ok (st.allocated - nd.len) := by
      unfold subLL
      have n1 := hpos nd (by rw [k2]; simp)
      have n2 : 0 ≤ total (a ++ b) := total_nonneg _ (fun y hy => hpos y (by
        rw [k2]; simp only [List.mem_append, List.mem_cons] at hy ⊢
        rcases hy with hy | hy
        · exact Or.inl hy
        · exact Or.inr (Or.inr hy)))
      rw [k2] at hacc
      rw [total_append] at hacc n2
      simp only [total] at hacc
      rw [if_pos]
      rw [llmin_eq]
      omega
    rw [hs, Out.ok_bind, k3]
    exact ⟨_, _, rfl, .heap nd a b (by omega) (by simpa using h2) k2 k1⟩

theorem sublist_flatMap {α β : Type} (f : α → List β) {a b : List α} (h : a.Sublist b) :
    (a.flatMap f).Sublist (b.flatMap f) := by
  induction h with
  | slnil => exact List.Sublist.refl _
  | cons x _ ih =>
    rw [List.flatMap_cons]
    exact ih.trans (List.sublist_append_right _ _)
  | cons_cons x _ ih =>
    rw [List.flatMap_cons, List.flatMap_cons]
    exact List.Sublist.append (List.Sublist.refl _) ih

theorem owned_sublist (st st' : St) (h : st'.nodes.Sublist st.nodes) : (owned st').Sublist (owned st) := by
  unfold owned
  exact sublist_flatMap _ h

theorem node_not_static {base w} (h : Inv base w) {nd : Node} (hnd : nd ∈ w.st.nodes) :
    ¬ (base ≤ nd.ptr ∧ nd.ptr < base + STATIC) := by
  have := h.ownedArena _ (mem_owned_ptr hnd)
  have hal := alignedLen_pos nd.len
  unfold Disj at this
  simp only [STATIC] at *
  omega

theorem inv_free {base : Nat} {w : World} (_hb : BaseOk base) (h : Inv base w) {p : Nat} {st' : St} {fs : Freed}
    (hc : FreeCase base w.st p st' fs) :
    Inv base ⟨st', w.live.filter (fun b => b.addr ≠ p), w.freed ++ fs⟩ := by
  have hpw : (w.live.filter (fun b => b.addr ≠ p)).Pairwise BDisj :=
    List.Pairwise.sublist List.filter_sublist h.liveDisj
  cases hc with
  | nothing hno =>
    rw [List.append_nil]
    refine ⟨h.availLe, h.availMod, h.zero, h.ownedDisj, h.ownedArena, h.nodePos, ?_, hpw, ?_, h.acct, h.acctLe, h.limitOk, h.freedZero, ?hp⟩
    case hp =>
      simp only []
      rw [h.heapEq]
      refine (heapSum_filter_none base p _ ?_).symm
      intro b hb hs e
      rcases (h.liveWhere b hb).2 with k | ⟨nd, k1, k2, k3⟩
      · have := room_pos b
        have : isStatic base b.addr = true := by rw [isStatic_iff]; omega
        rw [hs] at this; cases this
      · rcases hno with hno | hno | hno
        · have := (h.nodePos nd k1).1; omega
        · rw [← e, hs] at hno; cases hno
        · exact hno nd k1 (k2.trans e)
    · intro b hb
      exact h.liveWhere b (List.mem_filter.1 hb).1
    · intro nd hnd
      simp only [List.mem_filter]
      refine ⟨h.nodeLive nd hnd, ?_⟩
      simp only [ne_eq, decide_not, Bool.not_eq_eq_eq_not, Bool.not_true, decide_eq_false_iff_not]
      intro e
      rcases hno with hno | hno | hno
      · have := (h.nodePos nd hnd).1; omega
      · rw [isStatic_iff] at hno
        have := node_not_static h hnd
        rw [e] at this
        exact this hno
      · exact hno nd hnd e
  | heap nd a b hp hs hns hptr =>
    have hnd : nd ∈ w.st.nodes := by rw [hns]; simp
    have hsub : (a ++ b).Sublist w.st.nodes := by
      rw [hns]
      exact List.Sublist.append (List.Sublist.refl _) (List.sublist_cons_self _ _)
    have hmemsub : ∀ x ∈ a ++ b, x ∈ w.st.nodes := fun x hx => hsub.subset hx
    have hother : ∀ x ∈ a ++ b, x.ptr ≠ p := by
      intro x hx e
      have hod := h.ownedDisj
      have ho : owned w.st = owned {w.st with nodes := a} ++ ((nd.ptr, alignedLen nd.len) :: (nd.naddr, NODE) :: owned {w.st with nodes := b}) := by
        simp [owned, hns]
      rw [ho] at hod
      obtain ⟨_, o2, o3⟩ := List.pairwise_append.1 hod
      have r1 := alignedLen_pos x.len
      have r2 := alignedLen_pos nd.len
      rcases List.mem_append.1 hx with hx | hx
      · have := o3 _ (mem_owned_ptr (st := {w.st with nodes := a}) hx) (nd.ptr, alignedLen nd.len) (by simp)
        unfold RDisj Disj at this
        simp only [] at this
        omega
      · have := (List.pairwise_cons.1 o2).1 (x.ptr, alignedLen x.len) (List.mem_cons_of_mem _ (mem_owned_ptr (st := {w.st with nodes := b}) hx))
        unfold RDisj Disj at this
        simp only [] at this
        omega
    refine ⟨h.availLe, h.availMod, ?_, ?_, ?_, ?_, ?_, hpw, ?_, ?_, ?_, h.limitOk, ?_, ?hp⟩
    case hp =>
      simp only []
      rw [heapSum_filter_one base h.liveDisj (h.nodeLive nd hnd) (by rw [hptr]; exact hs) hptr, ← h.heapEq, hns, total_append, total_append]
      simp only [total]
      omega
    · intro x h1 h2
      exact cleanup_zero _ _ _ _ (h.zero x h1 h2)
    · exact List.Pairwise.sublist (owned_sublist _ _ hsub) h.ownedDisj
    · intro r hr
      exact h.ownedArena r ((owned_sublist _ _ hsub).subset hr)
    · intro x hx
      exact h.nodePos x (hmemsub x hx)
    · intro x hx
      simp only [List.mem_filter, decide_not, Bool.not_eq_eq_eq_not, Bool.not_true, decide_eq_false_iff_not, ne_eq] at hx
      obtain ⟨k1, k2⟩ := h.liveWhere x hx.1
      refine ⟨k1, ?_⟩
      rcases k2 with k2 | ⟨y, k2, k3, k4⟩
      · exact Or.inl k2
      · refine Or.inr ⟨y, ?_, k3, k4⟩
        rw [hns] at k2
        simp only [List.mem_append, List.mem_cons] at k2 ⊢
        rcases k2 with k2 | rfl | k2
        · exact Or.inl k2
        · exact absurd (k3.symm.trans hptr) hx.2
        · exact Or.inr k2
    · intro x hx
      simp only [List.mem_filter, decide_not, Bool.not_eq_eq_eq_not, Bool.not_true, decide_eq_false_iff_not, ne_eq]
      exact ⟨h.nodeLive x (hmemsub x hx), hother x hx⟩
    · simp only []
      rw [h.acct, hns, total_append, total_append]
      simp only [total]
      omega
    · simp only []
      have := (h.nodePos nd hnd).2.2
      have := h.acctLe
      omega
    · intro f hf y hy
      simp only [List.mem_append, List.mem_singleton] at hf
      rcases hf with hf | rfl
      · exact h.freedZero f hf y hy
      · rw [bytesAt_cleanup _ _ _ (by have := alignedLen_mod nd.len; omega)] at hy
        exact replicate_zero _ y hy

theorem freeNodes_freed (mem : Mem) (ns : List Node) : ∀ f ∈ (freeNodes mem ns).2, ∀ b ∈ f, b = 0 := by
  induction ns generalizing mem with
  | nil => simp [freeNodes]
  | cons nd ns ih =>
    intro f hf b hb
    simp only [freeNodes, List.mem_cons] at hf
    rcases hf with rfl | hf
    · rw [bytesAt_cleanup _ _ _ (by have := alignedLen_mod nd.len; omega)] at hb
      exact replicate_zero _ b hb
    · exact ih _ f hf b hb

theorem freeNodes_zero (mem : Mem) (ns : List Node) (x : Nat)
    (h : mem x = 0 ∨ ∃ nd ∈ ns, nd.ptr ≤ x ∧ x < nd.ptr + alignedLen nd.len) :
    (freeNodes mem ns).1 x = 0 := by
  induction ns generalizing mem with
  | nil => simpa [freeNodes] using h
  | cons nd ns ih =>
    simp only [freeNodes]
    apply ih
    rcases h with h | ⟨y, hy, h1, h2⟩
    · exact Or.inl (cleanup_zero _ _ _ _ h)
    · rcases List.mem_cons.1 hy with rfl | hy
      · exact Or.inl (cleanup_in _ _ _ _ (by have := alignedLen_mod y.len; omega) h1 h2)
      · exact Or.inr ⟨y, hy, h1, h2⟩

theorem inv_freeall {base : Nat} {w : World} (h : Inv base w) :
    Inv base ⟨(freeall base w.st).1, [], w.freed ++ (freeall base w.st).2⟩ := by
  have e : freeall base w.st = ({ w.st with mem := cleanup (freeNodes w.st.mem w.st.nodes).1 base STATIC, avail := STATIC, allocated := 0, nodes := [] }, (freeNodes w.st.mem w.st.nodes).2) := rfl
  rw [e]
  refine ⟨Nat.le_refl _, by simp [STATIC], ?_, by simp [owned], by simp [owned], by simp, by simp, by simp, by simp, by simp [total],
    by simp only [llmax_eq]; omega, h.limitOk, ?_, by simp [total, heapSum]⟩
  · intro x h1 h2
    exact cleanup_in _ _ _ _ (by simp [STATIC]) h1 h2
  · intro f hf b hb
    simp only [List.mem_append] at hf
    rcases hf with hf | hf
    · exact h.freedZero f hf b hb
    · exact freeNodes_freed _ _ f hf b hb

theorem inv_limit {base : Nat} {w : World} (h : Inv base w) {v : Int} (hv : IsLL v) :
    Inv base ⟨limitSet w.st v, w.live, w.freed⟩ := by
  unfold limitSet
  split
  · exact h
  · refine ⟨h.availLe, h.availMod, h.zero, h.ownedDisj, h.ownedArena, h.nodePos, h.liveWhere, h.liveDisj, h.nodeLive, h.acct, h.acctLe,
      Or.inr ⟨by simp only []; omega, hv.2⟩, h.freedZero, h.heapEq⟩

theorem inv_write {base : Nat} {w : World} (h : Inv base w) {a : Nat} {b : Byte}
    (hl : ∃ b ∈ w.live, b.addr ≤ a ∧ a < b.addr + b.room) :
    Inv base ⟨{ w.st with mem := fun x => if x = a then b else w.st.mem x }, w.live, w.freed⟩ := by
  refine ⟨h.availLe, h.availMod, ?_, h.ownedDisj, h.ownedArena, h.nodePos, h.liveWhere, h.liveDisj, h.nodeLive, h.acct, h.acctLe, h.limitOk, h.freedZero, h.heapEq⟩
  intro x h1 h2
  simp only [] at h2 ⊢
  obtain ⟨bl, l1, l2, l3⟩ := hl
  have := h.availLe
  rw [if_neg]
  · exact h.zero x h1 h2
  · rintro rfl
    rcases (h.liveWhere bl l1).2 with k | ⟨nd, k1, k2, k3⟩
    · omega
    · have := h.ownedArena _ (mem_owned_ptr k1)
      unfold Disj at this
      simp only [Block.room] at l3
      rw [k2, k3] at this
      simp only [] at this
      omega

/-- Every legitimate operation runs without undefined behaviour and keeps the invariant. -/
theorem step_inv {base : Nat} (hb : BaseOk base) {w : World} (h : Inv base w) {op : Op} (hl : Legit base w op) :
    ∃ w', step base w op = .ok w' ∧ Inv base w' := by
  cases op with
  | alloc n m =>
    obtain ⟨p, st', fs, h1, h2⟩ := alloc_cases base w.st n m (allocated_nonneg h) h.acctLe h.limitOk
    refine ⟨_, ?_, inv_alloc hb h hl.2 h2⟩
    simp only [step, h1, Out.ok_bind, Out.pure_eq]
  | free p =>
    obtain ⟨st', fs, h1, h2⟩ := free_cases base w.st p h.acct h.acctLe (fun x hx => (h.nodePos x hx).2.2)
    refine ⟨_, ?_, inv_free hb h h2⟩
    simp only [step, h1, Out.ok_bind, Out.pure_eq]
  | freeall => exact ⟨_, rfl, inv_freeall h⟩
  | limit v => exact ⟨_, rfl, inv_limit h hl⟩
  | write a b => exact ⟨_, rfl, inv_write h hl⟩

theorem inv_init {base : Nat} (mem : Mem) (h : ∀ a, base ≤ a → a < base + STATIC → mem a = 0) :
    Inv base ⟨St.init mem, [], []⟩ := by
  refine ⟨Nat.le_refl _, by simp [St.init, STATIC], h, by simp [St.init, owned], by simp [St.init, owned], by simp [St.init], by simp, by simp,
    by simp [St.init], by simp [St.init, total], by simp only [llmax_eq, St.init]; omega, by simp [St.init], by simp, by simp [St.init, total, heapSum]⟩

theorem reach_inv {base : Nat} (hb : BaseOk base) {w : World} (h : Reach base w) : Inv base w := by
  induction h with
  | init mem hm => exact inv_init mem hm
  | step _ hl hs ih =>
    obtain ⟨w', h1, h2⟩ := step_inv hb ih hl
    rw [hs] at h1
    cases h1
    exact h2

end Alloc
