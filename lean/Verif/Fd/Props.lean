import Verif.Fd.Model
/-
C79 and C80: what closing one direction does to the connection, and what the other helpers of
fd.c change.
-/
namespace Fd

/-! ### Lemmas -/

theorem shutdown_frame (f : Option Int) (fd : Int) (how : How) (s : St) :
    (shutdown f fd how s).2.k.fds = s.k.fds ∧ (shutdown f fd how s).2.k.files = s.k.files ∧
    (shutdown f fd how s).2.k.elsewhere = s.k.elsewhere := by
  unfold shutdown
  split
  · exact ⟨rfl, rfl, rfl⟩
  · split
    · split
      · exact ⟨rfl, rfl, rfl⟩
      · split <;> exact ⟨rfl, rfl, rfl⟩
    · exact ⟨rfl, rfl, rfl⟩

theorem shutdown_other (f : Option Int) (n : Nat) (how : How) (s : St) (d : Nat) (fl : BitVec 32) (hd : s.k.fds n = some (d, fl)) (j : Nat)
    (hj : (s.k.files d).kind ≠ .sock j) : (shutdown f n how s).2.k.socks j = s.k.socks j := by
  have : at? s.k (n : Int) = some (d, fl) := by unfold at?; rw [if_neg (by omega), Int.toNat_natCast, hd]
  unfold shutdown
  rw [this]
  simp only
  split
  · rename_i id hid
    have : j ≠ id := fun e => hj (by rw [hid, e])
    split
    · rfl
    · split
      · rfl
      · simp only [this, if_false]
  · rfl

theorem shutdown_ok (n : Nat) (how : How) (s : St) (d id : Nat) (fl : BitVec 32) (hd : s.k.fds n = some (d, fl))
    (hk : (s.k.files d).kind = .sock id) (hc : (s.k.socks id).connected = true) :
    (shutdown none n how s).2.k.socks id = match how with
      | .rd => { s.k.socks id with shutRd := true }
      | .wr => { s.k.socks id with shutWr := true } := by
  have : at? s.k (n : Int) = some (d, fl) := by unfold at?; rw [if_neg (by omega), Int.toNat_natCast, hd]
  unfold shutdown
  rw [this]
  simp only [hk, hc]
  cases how <;> simp

theorem close_socks (f : Option Int) (fd : Int) (s : St) : (close f fd s).2.k.socks = s.k.socks := by
  unfold close
  split
  · rfl
  · split <;> rfl

theorem close_released (f : Option Int) (n : Nat) (s : St) (h : s.k.fds n ≠ none) : Released s.k (close f n s).2.k n := by
  have : at? s.k (n : Int) = s.k.fds n := by unfold at?; rw [if_neg (by omega), Int.toNat_natCast]
  unfold close
  rw [this]
  cases e : s.k.fds n with
  | none => exact absurd e h
  | some x =>
    simp only [Int.toNat_natCast]
    have key : Released s.k { s.k with fds := fun m => if m = n then none else s.k.fds m } n :=
      ⟨by simp, fun m hm => by simp [hm], rfl, rfl⟩
    cases f <;> exact key

/-- The two functions, for an active slot. -/
theorem close_read_eq (f1 f2 : Option Int) (n : Nat) (s : St) : fd_close_read f1 f2 true (some n) s =
    (some (-1), ⟨(close f2 n (shutdown f1 n .rd s).2).2.k, s.errno⟩) := by
  unfold fd_close_read
  rw [if_neg (by simp)]
  simp only [tryshutdown, tryclose]
  rw [if_neg (by omega)]

theorem close_write_eq (f1 f2 : Option Int) (n : Nat) (s : St) : fd_close_write f1 f2 true (some n) s =
    (some (-1), ⟨(close f2 n (shutdown f1 n .wr s).2).2.k, s.errno⟩) := by
  unfold fd_close_write
  rw [if_neg (by simp)]
  simp only [tryshutdown, tryclose]
  rw [if_neg (by omega)]

theorem both_released (f1 f2 : Option Int) (n : Nat) (how : How) (s : St) (h : s.k.fds n ≠ none) :
    Released s.k (close f2 n (shutdown f1 n how s).2).2.k n := by
  obtain ⟨g1, g2, g3⟩ := shutdown_frame f1 n how s
  have := close_released f2 n (shutdown f1 n how s).2 (by rw [g1]; exact h)
  exact ⟨this.free, fun m hm => by rw [this.others m hm, g1], by rw [this.files, g2], by rw [this.elsewhere, g3]⟩

theorem held_released {k k' : Kern} {n : Nat} (h : Released k k' n) (w : Kind) :
    Held k' w ↔ ∃ d, (k.files d).kind = w ∧ (k.elsewhere d ∨ ∃ m fl, m ≠ n ∧ k.fds m = some (d, fl)) := by
  unfold Held
  rw [h.files, h.elsewhere]
  constructor
  · rintro ⟨d, h1, h2⟩
    refine ⟨d, h1, h2.imp_right ?_⟩
    rintro ⟨m, fl, h3⟩
    by_cases e : m = n
    · rw [e, h.free] at h3; cases h3
    · exact ⟨m, fl, e, by rw [← h.others m e]; exact h3⟩
  · rintro ⟨d, h1, h2⟩
    refine ⟨d, h1, h2.imp_right ?_⟩
    rintro ⟨m, fl, e, h3⟩
    exact ⟨m, fl, by rw [h.others m e]; exact h3⟩

/-! ### C79 -/

/-- C79: an active slot becomes inactive, its number is released, no other descriptor and no open file changes, and errno is kept,
whatever the calls answer. A connection the descriptor does not belong to is left alone. -/
theorem c79_released (f1 f2 : Option Int) (n : Nat) (s : St) (d : Nat) (fl : BitVec 32) (h : s.k.fds n = some (d, fl)) :
    (∀ r s', fd_close_read f1 f2 true (some n) s = (r, s') →
      r = some (-1) ∧ s'.errno = s.errno ∧ Released s.k s'.k n ∧ ∀ j, (s.k.files d).kind ≠ .sock j → s'.k.socks j = s.k.socks j) ∧
    (∀ r s', fd_close_write f1 f2 true (some n) s = (r, s') →
      r = some (-1) ∧ s'.errno = s.errno ∧ Released s.k s'.k n ∧ ∀ j, (s.k.files d).kind ≠ .sock j → s'.k.socks j = s.k.socks j) := by
  have hn : s.k.fds n ≠ none := by rw [h]; simp
  constructor
  · intro r s' e
    rw [close_read_eq] at e
    cases e
    exact ⟨rfl, rfl, both_released _ _ _ _ _ hn, fun j hj => by rw [close_socks, shutdown_other _ _ _ _ _ _ h _ hj]⟩
  · intro r s' e
    rw [close_write_eq] at e
    cases e
    exact ⟨rfl, rfl, both_released _ _ _ _ _ hn, fun j hj => by rw [close_socks, shutdown_other _ _ _ _ _ _ h _ hj]⟩

/-- C79: an inactive slot stays inactive and nothing at all happens. -/
theorem c79_inactive (f1 f2 : Option Int) (s : St) :
    fd_close_read f1 f2 true (some (-1)) s = (some (-1), s) ∧ fd_close_write f1 f2 true (some (-1)) s = (some (-1), s) := by
  constructor <;> rfl

/-- C79: closing the write side of a connection. The other end gets end-of-file even if other descriptors, here or in other
processes, still refer to the connection; and as long as one does, the incoming direction goes on as before. -/
theorem c79_write (f2 : Option Int) (n : Nat) (s : St) (d id : Nat) (fl : BitVec 32) (h : s.k.fds n = some (d, fl))
    (hk : (s.k.files d).kind = .sock id) (hc : (s.k.socks id).connected = true) :
    OutEnded (fd_close_write none f2 true (some n) s).2.k id ∧
    (Held (fd_close_write none f2 true (some n) s).2.k (.sock id) →
      (InEnded (fd_close_write none f2 true (some n) s).2.k id ↔ InEnded s.k id)) := by
  have r := both_released none f2 n .wr s (by rw [h]; simp)
  rw [close_write_eq]
  simp only
  have e : (close f2 n (shutdown none n .wr s).2).2.k.socks id = { s.k.socks id with shutWr := true } := by
    rw [close_socks, shutdown_ok n .wr s d id fl h hk hc]
  constructor
  · left; rw [e]
  · intro hh
    have hs : Held s.k (.sock id) := ⟨d, hk, .inr ⟨n, fl, h⟩⟩
    unfold InEnded
    rw [e]
    simp [hh, hs]

/-- C79: closing the read side of a connection: likewise. -/
theorem c79_read (f2 : Option Int) (n : Nat) (s : St) (d id : Nat) (fl : BitVec 32) (h : s.k.fds n = some (d, fl))
    (hk : (s.k.files d).kind = .sock id) (hc : (s.k.socks id).connected = true) :
    InEnded (fd_close_read none f2 true (some n) s).2.k id ∧
    (Held (fd_close_read none f2 true (some n) s).2.k (.sock id) →
      (OutEnded (fd_close_read none f2 true (some n) s).2.k id ↔ OutEnded s.k id)) := by
  have r := both_released none f2 n .rd s (by rw [h]; simp)
  rw [close_read_eq]
  simp only
  have e : (close f2 n (shutdown none n .rd s).2).2.k.socks id = { s.k.socks id with shutRd := true } := by
    rw [close_socks, shutdown_ok n .rd s d id fl h hk hc]
  constructor
  · left; rw [e]
  · intro hh
    have hs : Held s.k (.sock id) := ⟨d, hk, .inr ⟨n, fl, h⟩⟩
    unfold OutEnded
    rw [e]
    simp [hh, hs]

/-- C79: for a pipe the other end notices exactly if no other descriptor is left. -/
theorem c79_pipe (f1 f2 : Option Int) (n : Nat) (s : St) (d id : Nat) (fl : BitVec 32) (h : s.k.fds n = some (d, fl)) :
    ((s.k.files d).kind = .wpipe id → (NoWriter (fd_close_write f1 f2 true (some n) s).2.k id ↔
      ∀ e, (s.k.files e).kind = .wpipe id → ¬ s.k.elsewhere e ∧ ∀ m fl', s.k.fds m = some (e, fl') → m = n)) ∧
    ((s.k.files d).kind = .rpipe id → (NoReader (fd_close_read f1 f2 true (some n) s).2.k id ↔
      ∀ e, (s.k.files e).kind = .rpipe id → ¬ s.k.elsewhere e ∧ ∀ m fl', s.k.fds m = some (e, fl') → m = n)) := by
  have hn : s.k.fds n ≠ none := by rw [h]; simp
  have key : ∀ how w, (¬ Held (close f2 n (shutdown f1 n how s).2).2.k w) ↔
      ∀ e, (s.k.files e).kind = w → ¬ s.k.elsewhere e ∧ ∀ m fl', s.k.fds m = some (e, fl') → m = n := by
    intro how w
    rw [held_released (both_released f1 f2 n how s hn)]
    constructor
    · intro g e he
      refine ⟨fun x => g ⟨e, he, .inl x⟩, fun m fl' hm => ?_⟩
      by_cases c : m = n
      · exact c
      · exact absurd ⟨e, he, .inr ⟨m, fl', c, hm⟩⟩ g
    · rintro g ⟨e, he, x | ⟨m, fl', c, hm⟩⟩
      · exact (g e he).1 x
      · exact c ((g e he).2 m fl' hm)
  rw [close_read_eq, close_write_eq]
  exact ⟨fun _ => key _ _, fun _ => key _ _⟩

/-- C79: two descriptors of one connection, closed in either order: both directions are ended and both numbers free. -/
theorem c79_both (f2 f4 : Option Int) (a b : Nat) (hab : a ≠ b) (s : St) (d e id : Nat) (fl fl' : BitVec 32) (ha : s.k.fds a = some (d, fl))
    (hb : s.k.fds b = some (e, fl')) (hd : (s.k.files d).kind = .sock id) (he : (s.k.files e).kind = .sock id)
    (hc : (s.k.socks id).connected = true) :
    (∀ s1 s2, fd_close_read none f2 true (some a) s = (some (-1), s1) → fd_close_write none f4 true (some b) s1 = (some (-1), s2) →
      OutEnded s2.k id ∧ InEnded s2.k id ∧ s2.k.fds a = none ∧ s2.k.fds b = none ∧ ∀ m, m ≠ a → m ≠ b → s2.k.fds m = s.k.fds m) ∧
    (∀ s1 s2, fd_close_write none f4 true (some b) s = (some (-1), s1) → fd_close_read none f2 true (some a) s1 = (some (-1), s2) →
      OutEnded s2.k id ∧ InEnded s2.k id ∧ s2.k.fds a = none ∧ s2.k.fds b = none ∧ ∀ m, m ≠ a → m ≠ b → s2.k.fds m = s.k.fds m) := by
  constructor
  · intro s1 s2 h1 h2
    rw [close_read_eq] at h1
    rw [close_write_eq] at h2
    cases h1
    have r1 := both_released none f2 a .rd s (by rw [ha]; simp)
    have so : (close f2 a (shutdown none a .rd s).2).2.k.socks id = { s.k.socks id with shutRd := true } := by
      rw [close_socks, shutdown_ok a .rd s d id fl ha hd hc]
    generalize (close f2 a (shutdown none a .rd s).2).2.k = k1 at *
    have hb1 : k1.fds b = some (e, fl') := by rw [r1.others b hab.symm, hb]
    have r2 := both_released none f4 b .wr ⟨k1, s.errno⟩ (by rw [hb1]; simp)
    have so2 : (close f4 b (shutdown none b .wr ⟨k1, s.errno⟩).2).2.k.socks id = { k1.socks id with shutWr := true } := by
      rw [close_socks, shutdown_ok b .wr ⟨k1, s.errno⟩ e id fl' hb1 (by simp only [r1.files, he]) (by simp only [so, hc])]
    cases h2
    refine ⟨.inl (by rw [so2]), .inl (by rw [so2, so]), ?_, r2.free, fun m h1 h2 => ?_⟩
    · simp only [r2.others a hab, r1.free]
    · simp only [r2.others m h2, r1.others m h1]
  · intro s1 s2 h1 h2
    rw [close_write_eq] at h1
    rw [close_read_eq] at h2
    cases h1
    have r1 := both_released none f4 b .wr s (by rw [hb]; simp)
    have so : (close f4 b (shutdown none b .wr s).2).2.k.socks id = { s.k.socks id with shutWr := true } := by
      rw [close_socks, shutdown_ok b .wr s e id fl' hb he hc]
    generalize (close f4 b (shutdown none b .wr s).2).2.k = k1 at *
    have ha1 : k1.fds a = some (d, fl) := by rw [r1.others a hab, ha]
    have r2 := both_released none f2 a .rd ⟨k1, s.errno⟩ (by rw [ha1]; simp)
    have so2 : (close f2 a (shutdown none a .rd ⟨k1, s.errno⟩).2).2.k.socks id = { k1.socks id with shutRd := true } := by
      rw [close_socks, shutdown_ok a .rd ⟨k1, s.errno⟩ d id fl ha1 (by simp only [r1.files, hd]) (by simp only [so, hc])]
    cases h2
    refine ⟨.inl (by rw [so2, so]), .inl (by rw [so2]), r2.free, ?_, fun m h1 h2 => ?_⟩
    · simp only [r2.others b hab.symm, r1.free]
    · simp only [r2.others m h1, r1.others m h2]

/-- Connection 7 with the numbers 0 and 1, a pipe's write end at 2. -/
def sampleK : Kern where
  fds n := if n = 0 then some (10, 0) else if n = 1 then some (10, 1) else if n = 2 then some (11, 0) else none
  files d := if d = 10 then ⟨.sock 7, 2#32⟩ else if d = 11 then ⟨.wpipe 3, 1#32⟩ else ⟨.other, 0⟩
  elsewhere d := d = 10
  socks _ := ⟨true, false, false⟩

example : OutEnded (fd_close_write none none true (some 1) ⟨sampleK, 4⟩).2.k 7 ∧
    ¬ InEnded (fd_close_write none none true (some 1) ⟨sampleK, 4⟩).2.k 7 ∧ ¬ OutEnded sampleK 7 := by
  have w := c79_write none 1 ⟨sampleK, 4⟩ 10 7 1 rfl rfl rfl
  have hs : Held sampleK (.sock 7) := ⟨10, rfl, .inl rfl⟩
  have r := both_released none none 1 .wr ⟨sampleK, 4⟩ (by simp [sampleK])
  have hh : Held (fd_close_write none none true (some 1) ⟨sampleK, 4⟩).2.k (.sock 7) := by
    change Held (fd_close_write none none true (some ((1 : Nat) : Int)) ⟨sampleK, 4⟩).2.k _
    rw [close_write_eq]; simp only; rw [held_released r]; exact ⟨10, rfl, .inl rfl⟩
  refine ⟨w.1, fun g => ?_, ?_⟩
  · rcases (w.2 hh).mp g with e | e
    · exact absurd e (by decide)
    · exact e hs
  · rintro (e | e)
    · exact absurd e (by decide)
    · exact e hs

example : NoWriter (fd_close_write none none true (some 2) ⟨sampleK, 4⟩).2.k 3 := by
  refine ((c79_pipe none none 2 ⟨sampleK, 4⟩ 11 3 0 rfl).1 rfl).mpr ?_
  intro e he
  by_cases h1 : e = 10
  · subst h1; cases he
  · by_cases h2 : e = 11
    · subst h2
      refine ⟨by simp [sampleK], fun m fl hm => ?_⟩
      simp only [sampleK] at hm
      split at hm
      · cases hm
      · split at hm
        · cases hm
        · split at hm
          · assumption
          · cases hm
    · simp [sampleK, h1, h2] at he

/-- The slots must be separate descriptors (as the comment in fd.c asks): with one number in both, a descriptor opened in between
is closed instead. -/
theorem c79_needs_dup : ∃ (s s1 s2 : St) (x : Nat × BitVec 32), fd_close_read none none true (some 0) s = (some (-1), s1) ∧
    s1.k.fds 0 = none ∧
    fd_close_write none none true (some 0) { s1 with k := { s1.k with fds := fun m => if m = 0 then some x else s1.k.fds m } } = (some (-1), s2) ∧
    (s1.k.files x.1).kind = .wpipe 3 ∧ s2.k.fds 0 = none :=
  ⟨⟨sampleK, 4⟩, _, _, (11, 0), close_read_eq _ _ 0 _, (both_released none none 0 .rd ⟨sampleK, 4⟩ (by simp [sampleK])).free,
    close_write_eq _ _ 0 _, rfl, (both_released none none 0 .wr _ (by simp)).free⟩

/-! ### C80 -/

/-- C80: a read or write is refused without touching the descriptor, or is one call, with what was asked for but at most 1 MiB;
its result is passed on, and a descriptor that is not ready always shows as EAGAIN. -/
theorem c80_once (ew : Int) (sys : Call) (buf : Bool) (len : Int) :
    ∀ f ∈ [fd_read_, fd_read, fd_write_, fd_write],
      ((buf = false ∨ len < 0) → f ew sys buf len = ⟨-1, EINVAL, []⟩) ∧
      (buf = true → 0 ≤ len → ∃ n : Nat, (f ew sys buf len).calls = [n] ∧ (n : Int) = min len 1048576 ∧ (f ew sys buf len).r = (sys n 0).1 ∧
        (((f ew sys buf len).r = -1 ∧ (sys n 0).2 = ew → (f ew sys buf len).errno = EAGAIN) ∧
         (¬ ((f ew sys buf len).r = -1 ∧ (sys n 0).2 = ew) → (f ew sys buf len).errno = (sys n 0).2))) := by
  have key : ∀ f, (buf = false ∨ len < 0 → f = (⟨-1, EINVAL, []⟩ : Done)) →
      (buf = true → 0 ≤ len → f = fd_read_ ew sys true len) →
      ((buf = false ∨ len < 0) → f = ⟨-1, EINVAL, []⟩) ∧
      (buf = true → 0 ≤ len → ∃ n : Nat, f.calls = [n] ∧ (n : Int) = min len 1048576 ∧ f.r = (sys n 0).1 ∧
        ((f.r = -1 ∧ (sys n 0).2 = ew → f.errno = EAGAIN) ∧ (¬ (f.r = -1 ∧ (sys n 0).2 = ew) → f.errno = (sys n 0).2))) := by
    intro f h1 h2
    refine ⟨h1, fun hb hl => ?_⟩
    rw [h2 hb hl]
    unfold fd_read_
    rw [if_neg (by simp), if_neg (by omega)]
    refine ⟨_, rfl, ?_, rfl, fun h => if_pos h, fun h => if_neg h⟩
    split <;> omega
  intro f hf
  simp only [List.mem_cons, List.not_mem_nil, or_false] at hf
  rcases hf with rfl | rfl | rfl | rfl
  · refine key _ (fun h => ?_) (fun h _ => by rw [h])
    unfold fd_read_; rcases h with h | h <;> simp [h]
  · refine key _ (fun h => ?_) (fun h h' => by unfold fd_read; rw [if_neg (by simp [h]), if_neg (by omega), h])
    unfold fd_read; rcases h with h | h <;> simp [h]
  · refine key _ (fun h => ?_) (fun h h' => by unfold fd_write_ fd_read_; rw [h])
    unfold fd_write_; rcases h with h | h <;> simp [h]
  · refine key _ (fun h => ?_) (fun h h' => by unfold fd_write fd_write_ fd_read_; rw [if_neg (by simp [h]), if_neg (by omega), h])
    unfold fd_write; rcases h with h | h <;> simp [h]

/-- C80: with a kernel that transfers at most the count, nothing is stored behind the buffer of `len` bytes. -/
theorem c80_bound (ew : Int) (sys : Call) (buf : Bool) (len : Int) (hs : ∀ n e, (sys n e).1 ≤ n) (hl : 0 ≤ len) :
    ∀ f ∈ [fd_read_, fd_read, fd_write_, fd_write], (f ew sys buf len).r ≤ len ∧ (f ew sys buf len).r ≤ 1048576 := by
  intro f hf
  obtain ⟨h1, h2⟩ := c80_once ew sys buf len f hf
  cases buf with
  | false => rw [h1 (.inl rfl)]; simp only; omega
  | true =>
    obtain ⟨n, -, h3, h4, -⟩ := h2 rfl hl
    have := hs n 0
    rw [h4]
    omega

example : fd_read 11 (fun n _ => (n, 0)) true 3000000 = ⟨1048576, 0, [1048576]⟩ ∧ fd_write 35 (fun _ _ => (-1, 35)) true 5 = ⟨-1, EAGAIN, [5]⟩ ∧
    fd_read 11 (fun n _ => (n, 0)) true (-1) = ⟨-1, EINVAL, []⟩ := by decide

theorem bit11 (v : BitVec 32) : (v &&& ~~~ O_NONBLOCK).getLsbD 11 = false ∧ (v ||| O_NONBLOCK).getLsbD 11 = true ∧
    OnlyBit 11 v (v &&& ~~~ O_NONBLOCK) ∧ OnlyBit 11 v (v ||| O_NONBLOCK) := by
  have hb : ∀ j, O_NONBLOCK.getLsbD j = decide (j = 11) := by
    intro j
    by_cases h : j < 32
    · revert j; decide +kernel
    · rw [BitVec.getLsbD_of_ge _ _ (by omega)]; simp; omega
  refine ⟨by simp [hb], by simp [hb], fun j hj => ?_, fun j hj => ?_⟩
  · by_cases h : j < 32
    · rw [BitVec.getLsbD_and, BitVec.getLsbD_not, hb]; simp [hj, h]
    · rw [BitVec.getLsbD_of_ge _ _ (by omega), BitVec.getLsbD_of_ge _ _ (by omega)]
  · simp [hb, hj]

theorem bit0 (v : BitVec 32) : (v &&& ~~~ FD_CLOEXEC).getLsbD 0 = false ∧ (v ||| FD_CLOEXEC).getLsbD 0 = true ∧
    OnlyBit 0 v (v &&& ~~~ FD_CLOEXEC) ∧ OnlyBit 0 v (v ||| FD_CLOEXEC) := by
  have hb : ∀ j, FD_CLOEXEC.getLsbD j = decide (j = 0) := by
    intro j
    by_cases h : j < 32
    · revert j; decide +kernel
    · rw [BitVec.getLsbD_of_ge _ _ (by omega)]; simp; omega
  refine ⟨by simp [hb], by simp [hb], fun j hj => ?_, fun j hj => ?_⟩
  · by_cases h : j < 32
    · rw [BitVec.getLsbD_and, BitVec.getLsbD_not, hb]; simp [hj, h]
    · rw [BitVec.getLsbD_of_ge _ _ (by omega), BitVec.getLsbD_of_ge _ _ (by omega)]
  · simp [hb, hj]

/-- The open file `d` got new flags that differ in O_NONBLOCK (bit 11) only, which is now `on`; everything else is as before. -/
structure Blocking (k k' : Kern) (d : Nat) (on : Bool) : Prop where
  bit : (k'.files d).status.getLsbD 11 = on
  only : OnlyBit 11 (k.files d).status (k'.files d).status
  kind : (k'.files d).kind = (k.files d).kind
  others : ∀ e, e ≠ d → k'.files e = k.files e
  fds : k'.fds = k.fds
  socks : k'.socks = k.socks
  elsewhere : k'.elsewhere = k.elsewhere

/-- Descriptor `n` got new flags that differ in FD_CLOEXEC (bit 0) only, which is now `on`; everything else is as before. -/
structure OnExec (k k' : Kern) (n : Nat) (on : Bool) : Prop where
  bit : ∃ d a b, k.fds n = some (d, a) ∧ k'.fds n = some (d, b) ∧ b.getLsbD 0 = on ∧ OnlyBit 0 a b
  others : ∀ m, m ≠ n → k'.fds m = k.fds m
  files : k'.files = k.files
  socks : k'.socks = k.socks
  elsewhere : k'.elsewhere = k.elsewhere

theorem setfl_blocking (n : Nat) (s : St) (d : Nat) (fl v : BitVec 32) (h : s.k.fds n = some (d, fl)) (on : Bool)
    (h1 : v.getLsbD 11 = on) (h2 : OnlyBit 11 (s.k.files d).status v) : Blocking s.k (setfl false n v s).k d on := by
  have : at? s.k (n : Int) = some (d, fl) := by unfold at?; rw [if_neg (by omega), Int.toNat_natCast, h]
  unfold setfl
  rw [this]
  simp only [Bool.false_eq_true, if_false]
  exact ⟨by simpa using h1, by simpa using h2, by simp, fun e he => by simp [he], rfl, rfl, rfl⟩

theorem setfd_exec (n : Nat) (s : St) (d : Nat) (fl v : BitVec 32) (h : s.k.fds n = some (d, fl)) (on : Bool)
    (h1 : v.getLsbD 0 = on) (h2 : OnlyBit 0 fl v) : OnExec s.k (setfd false n v s).k n on := by
  have : at? s.k (n : Int) = some (d, fl) := by unfold at?; rw [if_neg (by omega), Int.toNat_natCast, h]
  unfold setfd
  rw [this]
  simp only [Bool.false_eq_true, if_false, Int.toNat_natCast]
  exact ⟨⟨d, fl, v, h, by simp, h1, h2⟩, fun e he => by simp [he], rfl, rfl, rfl⟩

/-- C80: the four switches change the one flag they are about, of the one open file or descriptor, and nothing else. Blocking mode
belongs to the open file, so it changes for every descriptor that refers to it, also in other processes; close-on-exec belongs to
the number. -/
theorem c80_flags (n : Nat) (s : St) (d : Nat) (fl : BitVec 32) (h : s.k.fds n = some (d, fl)) :
    Blocking s.k (fd_blocking_enable false n s).k d false ∧ Blocking s.k (fd_blocking_disable false n s).k d true ∧
    OnExec s.k (fd_coe_enable false n s).k n true ∧ OnExec s.k (fd_coe_disable false n s).k n false := by
  have e : at? s.k (n : Int) = some (d, fl) := by unfold at?; rw [if_neg (by omega), Int.toNat_natCast, h]
  have e1 : getfl n s = some (s.k.files d).status := by unfold getfl; rw [e]; rfl
  have e2 : getfd n s = some fl := by unfold getfd; rw [e]; rfl
  unfold fd_blocking_enable fd_blocking_disable fd_coe_enable fd_coe_disable
  rw [e1, e2]
  obtain ⟨b1, b2, b3, b4⟩ := bit11 (s.k.files d).status
  obtain ⟨c1, c2, c3, c4⟩ := bit0 fl
  exact ⟨setfl_blocking n s d fl _ h _ b1 b3, setfl_blocking n s d fl _ h _ b2 b4, setfd_exec n s d fl _ h _ c2 c4, setfd_exec n s d fl _ h _ c1 c3⟩

/-- C80: without a descriptor nothing changes. -/
theorem c80_flags_closed (f : Bool) (fd : Int) (s : St) (h : at? s.k fd = none) :
    (fd_blocking_enable f fd s).k = s.k ∧ (fd_blocking_disable f fd s).k = s.k ∧ (fd_coe_enable f fd s).k = s.k ∧ (fd_coe_disable f fd s).k = s.k := by
  unfold fd_blocking_enable fd_blocking_disable fd_coe_enable fd_coe_disable getfl getfd
  rw [h]
  exact ⟨rfl, rfl, rfl, rfl⟩

example : ((fd_blocking_disable false 0 ⟨sampleK, 0⟩).k.files 10).status = 2050#32 ∧ (fd_coe_disable false 1 ⟨sampleK, 0⟩).k.fds 1 = some (10, 0) := by
  constructor <;> decide +kernel

end Fd
