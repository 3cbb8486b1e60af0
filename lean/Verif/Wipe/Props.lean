import Verif.Wipe.Model
import Verif.Alloc.Props
import Verif.BaseLemmas
/-
C83: buffers are filled with random bytes completely.
C84: nothing of a session is left in memory when a process exits.
-/
namespace Wipe
open Io

/-! ### C83 -/

theorem init_spec {s s' : Src} (h : init s = some s') : s'.opened = true ∧ s'.fd = s.fd ∧ (s.opened = true → s' = s) := by
  unfold init at h
  split at h
  · cases h; rename_i ho; exact ⟨ho, rfl, fun _ => rfl⟩
  · rename_i ho
    have : ∀ (o : List Bool) (s s' : Src), init.go o s = some s' → s'.opened = true ∧ s'.fd = s.fd := by
      intro o
      induction o with
      | nil => intro s s' h; cases h
      | cons b o ih =>
        intro s s' h
        cases b
        · exact (ih _ _ h).imp id id
        · cases h; exact ⟨rfl, rfl⟩
    obtain ⟨h1, h2⟩ := this _ _ _ h
    exact ⟨h1, h2, fun h => absurd h ho⟩

theorem fillLoop_spec (evs : List RdEv) : ∀ (src : Bytes) (slept : Nat) (x : Bytes) (at_ xlen : Nat), at_ + xlen ≤ x.length →
    ∀ r, fillLoop evs src slept x at_ xlen = some r →
      xlen ≤ src.length ∧ ∃ evs' slept', r = .ok (x.take at_ ++ src.take xlen ++ x.drop (at_ + xlen), src.drop xlen, evs', slept') := by
  induction evs with
  | nil =>
    intro src slept x at_ xlen hx r h
    cases xlen with
    | zero => simp only [fillLoop] at h; cases h; exact ⟨Nat.zero_le _, _, _, by simp; exact ⟨rfl, rfl⟩⟩
    | succ n => simp only [fillLoop] at h; cases h
  | cons ev evs ih =>
    intro src slept x at_ xlen hx r h
    cases xlen with
    | zero => simp only [fillLoop] at h; cases h; exact ⟨Nat.zero_le _, _, _, by simp; exact ⟨rfl, rfl⟩⟩
    | succ n =>
      cases ev with
      | data m =>
        simp only [fillLoop] at h
        generalize hi : (if n + 1 < 1048576 then n + 1 else 1048576) = i at h
        have hin : i ≤ n + 1 := by rw [← hi]; split <;> omega
        have hlen : (got src i m).length = min (min i (m + 1)) src.length := List.length_take
        have hgot : got src i m = src.take (got src i m).length := by
          unfold got
          rw [List.length_take, List.take_eq_take_iff]
          omega
        generalize got src i m = g at h hlen hgot
        split at h
        · exact ih _ _ _ _ _ hx r h
        · rename_i h0
          rw [copyN_full _ _ _ _ (Nat.le_refl _) (by omega)] at h
          simp only [List.take_length] at h
          have hl : (x.take at_ ++ (g ++ x.drop (at_ + g.length))).length = x.length := by
            simp only [List.length_append, List.length_take, List.length_drop]; omega
          obtain ⟨h1, e1, e2, h2⟩ := ih _ _ _ _ _ (by rw [hl]; omega) r h
          rw [List.length_drop] at h1
          refine ⟨by omega, e1, e2, ?_⟩
          rw [h2]
          congr 1
          rw [List.drop_drop, show g.length + (n + 1 - g.length) = n + 1 by omega,
            show at_ + g.length + (n + 1 - g.length) = at_ + (n + 1) by omega]
          congr 1
          have t1 : (x.take at_).length = at_ := by rw [List.length_take]; omega
          have a1 : (x.take at_ ++ (g ++ x.drop (at_ + g.length))).take (at_ + g.length) = x.take at_ ++ g := by
            rw [← List.append_assoc, List.take_left' (by rw [List.length_append, t1])]
          have a2 : (x.take at_ ++ (g ++ x.drop (at_ + g.length))).drop (at_ + (n + 1)) = x.drop (at_ + (n + 1)) := by
            rw [← List.append_assoc, List.drop_append, List.length_append, t1, List.drop_of_length_le (by rw [List.length_append, t1]; omega),
              List.drop_drop, List.nil_append]
            congr 1; omega
          rw [a1, a2]
          congr 1
          rw [List.append_assoc]
          congr 1
          have e3 : g ++ (src.drop g.length).take (n + 1 - g.length) = src.take g.length ++ (src.drop g.length).take (n + 1 - g.length) := by
            rw [← hgot]
          rw [e3, ← List.take_add]
          congr 1; omega
      | eintr => simp only [fillLoop] at h; exact ih _ _ _ _ _ hx r h
      | eagain => simp only [fillLoop] at h; exact ih _ _ _ _ _ hx r h
      | err e => simp only [fillLoop] at h; exact ih _ _ _ _ _ hx r h

/-- C83: when the call returns, the first `n` bytes of the object are the next `n` bytes
of the random stream, in order and with none skipped, and nothing else changed. The
stream goes on behind them. Reads may be short, be interrupted, return nothing or fail. -/
theorem c83_filled (s : Src) (x : Bytes) (n : Nat) (hn : n ≤ x.length) (r : Out (Bytes × Src)) (h : randombytes s x n = some r) :
    n ≤ s.fd.src.length ∧ ∃ s', r = .ok (s.fd.src.take n ++ x.drop n, s') ∧ s'.fd.src = s.fd.src.drop n ∧ s'.opened = true := by
  unfold randombytes at h
  cases hi : init s with
  | none => rw [hi] at h; cases h
  | some s1 =>
    obtain ⟨h1, h2, -⟩ := init_spec hi
    rw [hi] at h
    simp only [] at h
    cases hf : fillLoop s1.fd.evs s1.fd.src s1.slept x 0 (n : Int).toNat with
    | none => rw [hf] at h; cases h
    | some r1 =>
      rw [hf] at h
      rw [Int.toNat_natCast] at hf
      obtain ⟨hl, evs, sl, hr⟩ := fillLoop_spec _ _ _ _ _ _ (by omega) _ hf
      subst hr
      simp only [] at h
      cases h
      rw [h2] at hl
      exact ⟨hl, { s1 with fd := ⟨s1.fd.src.drop n, evs⟩, slept := sl }, by simp [h2], by simp [h2], h1⟩

/-- A length that is not positive: nothing is written. -/
theorem c83_nothing (s : Src) (x : Bytes) (n : Int) (hn : n ≤ 0) (r : Out (Bytes × Src)) (h : randombytes s x n = some r) :
    ∃ s', r = .ok (x, s') ∧ s'.fd.src = s.fd.src := by
  have e : randombytes s x n = randombytes s x (0 : Nat) := by unfold randombytes; rw [Int.toNat_of_nonpos hn]; rfl
  rw [e] at h
  obtain ⟨-, s', h1, h2, -⟩ := c83_filled s x 0 (Nat.zero_le _) r h
  exact ⟨s', by simpa using h1, by simpa using h2⟩

/-- An outcome of a read that brings something. -/
def brings : RdEv → Bool
  | .data _ => true
  | _ => false

theorem fillLoop_returns (evs : List RdEv) : ∀ (src : Bytes) (slept : Nat) (x : Bytes) (at_ xlen : Nat),
    xlen ≤ src.length → xlen ≤ evs.countP brings → fillLoop evs src slept x at_ xlen ≠ none := by
  induction evs with
  | nil =>
    intro src slept x at_ xlen _ h
    cases xlen with
    | zero => simp [fillLoop]
    | succ n => simp at h
  | cons ev evs ih =>
    intro src slept x at_ xlen hs h
    cases xlen with
    | zero => simp [fillLoop]
    | succ n =>
      cases ev with
      | data m =>
        rw [List.countP_cons_of_pos rfl] at h
        simp only [fillLoop]
        generalize hi : (if n + 1 < 1048576 then n + 1 else 1048576) = i
        have hin : 1 ≤ i := by rw [← hi]; split <;> omega
        have hlen : (got src i m).length = min (min i (m + 1)) src.length := List.length_take
        generalize got src i m = g at hlen ⊢
        rw [if_neg (by omega)]
        split
        · simp
        · exact ih _ _ _ _ _ (by rw [List.length_drop]; omega) (by omega)
      | eintr => rw [List.countP_cons_of_neg (by simp [brings])] at h; simp only [fillLoop]; exact ih _ _ _ _ _ hs h
      | eagain => rw [List.countP_cons_of_neg (by simp [brings])] at h; simp only [fillLoop]; exact ih _ _ _ _ _ hs h
      | err e => rw [List.countP_cons_of_neg (by simp [brings])] at h; simp only [fillLoop]; exact ih _ _ _ _ _ hs h

/-- C83: the call returns once the source was opened and enough reads brought something,
however many failed in between. -/
theorem c83_returns (s : Src) (x : Bytes) (n : Nat) (ho : s.opened = true ∨ true ∈ s.opens) (hs : n ≤ s.fd.src.length)
    (he : n ≤ s.fd.evs.countP brings) : randombytes s x n ≠ none := by
  obtain ⟨s1, h1⟩ : ∃ s1, init s = some s1 := by
    unfold init
    split
    · exact ⟨_, rfl⟩
    · rename_i hno
      rcases ho with ho | ho
      · exact absurd ho hno
      · have : ∀ (o : List Bool) (s : Src), true ∈ o → ∃ s1, init.go o s = some s1 := by
          intro o
          induction o with
          | nil => intro s h; cases h
          | cons b o ih =>
            intro s h
            cases b
            · exact ih _ (by simpa using h)
            · exact ⟨_, rfl⟩
        exact this _ _ ho
  obtain ⟨-, h2, -⟩ := init_spec h1
  unfold randombytes
  rw [h1]
  simp only [Int.toNat_natCast]
  have := fillLoop_returns s1.fd.evs s1.fd.src s1.slept x 0 n (by rw [h2]; exact hs) (by rw [h2]; exact he)
  split
  · contradiction
  · simp
  · simp

/-- C83: the source is opened once: after that no call of open is made, so the function
works in a process that can open nothing. -/
theorem c83_opens_once (s s' : Src) (x x' : Bytes) (n : Int) (ho : s.opened = true) (h : randombytes s x n = some (.ok (x', s'))) :
    s'.opens = s.opens ∧ s'.opened = true := by
  unfold randombytes at h
  rw [show init s = some s by unfold init; rw [if_pos ho]] at h
  simp only [] at h
  split at h
  · cases h
  · cases h
  · cases h; exact ⟨rfl, ho⟩

/-- Reads that are interrupted, fail, bring nothing or bring one byte. -/
example : randombytes ⟨false, [false, true, true], ⟨[10, 11, 12, 13, 14], [.eintr, .data 0, .err 5, .eagain, .data 1, .data 9, .data 9]⟩, 0⟩
    [1, 2, 3, 4, 5] 4 = some (.ok ([10, 11, 12, 13, 5], ⟨true, [true], ⟨[14], [.data 9]⟩, 4⟩)) := by decide

/-! ### C84 -/

/-- Every object has the size it is declared with. -/
def Shape (c : Nat) (m : Mem) : Prop := ∀ v, (m v).length = sizeOf c v

/-- What the TLS wrapper holds of a session. -/
def session : List Var :=
  [.ctx, .cleartext_tochildbuf, .cleartext_tochildbuflen, .cleartext_tonetbuf, .cleartext_tonetbuflen,
   .localip, .localport, .remoteip, .remoteport, .remoteipstr]

/-- What the TCP wrapper holds of a session. -/
def tcpSession : List Var := [.inbuf, .outbuf, .ip, .port, .localip, .localport, .remoteip, .remoteport, .remoteipstr]

/-- What the SMTP wrapper holds of a session: payload and addresses. -/
def smtpSession : List Var :=
  [.smtpin, .smtpout, .smtpcin, .smtpcout, .localip, .localport, .remoteip, .remoteport, .remoteipstr]

/-- After the clean-up the objects `vs` hold fresh random bytes, each its own part of the
stream: nothing of what they held. -/
def Overwritten (vs : List Var) (size : Var → Nat) (src : Bytes) (m' : Mem) (off : Var → Nat) : Prop :=
  (∀ v ∈ vs, m' v = (src.drop (off v)).take (size v) ∧ off v + size v ≤ src.length) ∧
  ∀ v ∈ vs, ∀ w ∈ vs, v ≠ w → off v + size v ≤ off w ∨ off w + size w ≤ off v

/-- Position in the stream at which an object is filled. -/
def offs : List (Var × Nat) → Nat → Var → Nat
  | [], k, _ => k
  | (w, n) :: l, k, v => if v = w then k else offs l (k + n) v

theorem offs_ge (l : List (Var × Nat)) (k : Nat) (v : Var) : k ≤ offs l k v := by
  induction l generalizing k with
  | nil => exact Nat.le_refl _
  | cons a l ih =>
    obtain ⟨w, n⟩ := a
    unfold offs
    split
    · exact Nat.le_refl _
    · exact Nat.le_trans (Nat.le_add_right _ _) (ih _)

theorem offs_disj (size : Var → Nat) (l : List (Var × Nat)) (hl : ∀ a ∈ l, a.2 = size a.1) : ∀ (k : Nat) (v w : Var),
    v ∈ l.map (·.1) → w ∈ l.map (·.1) → v ≠ w → offs l k v + size v ≤ offs l k w ∨ offs l k w + size w ≤ offs l k v := by
  induction l with
  | nil => intro k v w h; cases h
  | cons a l ih =>
    intro k v w hv hw hne
    obtain ⟨u, n⟩ := a
    have hn : n = size u := hl _ List.mem_cons_self
    unfold offs
    by_cases h1 : v = u
    · subst h1
      rw [if_pos rfl, if_neg (fun h => hne h.symm)]
      left
      have := offs_ge l (k + n) w
      omega
    · by_cases h2 : w = u
      · subst h2
        rw [if_neg h1, if_pos rfl]
        right
        have := offs_ge l (k + n) v
        omega
      · rw [if_neg h1, if_neg h2]
        simp only [List.map_cons, List.mem_cons, h1, h2, false_or] at hv hw
        exact ih (fun a h => hl a (List.mem_cons_of_mem _ h)) _ _ _ hv hw hne

/-- The number of bytes a list takes from the stream. -/
def total (l : List (Var × Nat)) : Nat := (l.map (·.2)).sum

theorem wipe_spec (l : List (Var × Nat)) : ∀ (m : Mem) (s : Src) (r : Out (Mem × Src)), (∀ a ∈ l, (m a.1).length = a.2) →
    (l.map (·.1)).Nodup → wipe l m s = some r → ∃ m' s', r = .ok (m', s') ∧ s'.fd.src = s.fd.src.drop (total l) ∧ total l ≤ s.fd.src.length ∧
      (∀ v, v ∉ l.map (·.1) → m' v = m v) ∧
      ∀ a ∈ l, ∀ k, m' a.1 = (s.fd.src.drop (offs l k a.1 - k)).take a.2 ∧ offs l k a.1 - k + a.2 ≤ s.fd.src.length := by
  induction l with
  | nil =>
    intro m s r _ _ h
    cases h
    exact ⟨m, s, rfl, by simp [total], by simp [total], fun _ _ => rfl, fun a h => absurd h (List.not_mem_nil)⟩
  | cons a l ih =>
    intro m s r hm hnd h
    obtain ⟨v, n⟩ := a
    have hlen : (m v).length = n := hm (v, n) List.mem_cons_self
    unfold wipe at h
    cases hr : randombytes s (m v) n with
    | none => rw [hr] at h; cases h
    | some r1 =>
      obtain ⟨h1, s1, hx, hs1, -⟩ := c83_filled s (m v) n (by omega) r1 hr
      rw [hr, hx, List.drop_of_length_le (l := m v) (by omega), List.append_nil] at h
      simp only [] at h
      rw [List.map_cons, List.nodup_cons] at hnd
      obtain ⟨m', s', e, h2, h2', h3, h4⟩ := ih _ s1 r (by
        intro a ha
        have : a.1 ≠ v := fun h => hnd.1 (h ▸ List.mem_map.2 ⟨a, ha, rfl⟩)
        simp only [this, if_false]
        exact hm a (List.mem_cons_of_mem _ ha)) hnd.2 h
      refine ⟨m', s', e, ?_, ?_, ?_, ?_⟩
      · rw [h2, hs1, List.drop_drop]; simp [total]
      · rw [hs1, List.length_drop] at h2'
        have : total ((v, n) :: l) = n + total l := by simp [total]
        omega
      · intro w hw
        simp only [List.map_cons, List.mem_cons, not_or] at hw
        rw [h3 w hw.2, if_neg hw.1]
      · intro a ha k
        rcases List.mem_cons.1 ha with rfl | ha
        · unfold offs
          rw [if_pos rfl, h3 v hnd.1, if_pos rfl]
          simp only [Nat.sub_self, List.drop_zero, true_and, Nat.zero_add]
          exact h1
        · have hne : a.1 ≠ v := fun h => hnd.1 (h ▸ List.mem_map.2 ⟨a, ha, rfl⟩)
          obtain ⟨g1, g2⟩ := h4 a ha (k + n)
          unfold offs
          rw [if_neg hne]
          have := offs_ge l (k + n) a.1
          rw [hs1, List.drop_drop] at g1
          rw [hs1, List.length_drop] at g2
          rw [show n + (offs l (k + n) a.1 - (k + n)) = offs l (k + n) a.1 - k by omega] at g1
          exact ⟨g1, by omega⟩

theorem cleanup_spec (l : List (Var × Nat)) (c base : Nat) (hnd : (l.map (·.1)).Nodup) (hl : ∀ a ∈ l, a.2 = sizeOf c a.1)
    (m : Mem) (heap : Alloc.St) (s : Src) (hs : Shape c m) (hst : .stack ∉ l.map (·.1)) (r : Out (Mem × Alloc.St × Src))
    (h : cleanup l base m heap s = some r) :
    ∃ m' s', r = .ok (m', (Alloc.freeall base heap).1, s') ∧
      Overwritten (l.map (·.1)) (sizeOf c) s.fd.src m' (offs l 0) ∧
      (∀ v, v ∉ l.map (·.1) → v ≠ .stack → m' v = m v) := by
  unfold cleanup at h
  cases hw : wipe l m s with
  | none => rw [hw] at h; cases h
  | some r1 =>
    obtain ⟨m1, s1, e1, h1, h1', h2, h3⟩ := wipe_spec l m s r1 (fun a ha => by rw [hs, hl a ha]) hnd hw
    rw [hw, e1] at h
    simp only [] at h
    cases hw2 : wipe [(Var.stack, sizeOf 0 .stack)] m1 s1 with
    | none => rw [hw2] at h; cases h
    | some r2 =>
      obtain ⟨m2, s2, e2, -, -, g2, -⟩ := wipe_spec [(Var.stack, sizeOf 0 .stack)] m1 s1 r2
        (by intro a ha; rw [List.mem_singleton.1 ha]; show (m1 Var.stack).length = _; rw [h2 _ hst, hs]; rfl) (by simp) hw2
      rw [hw2, e2] at h
      cases h
      refine ⟨m2, s2, rfl, ⟨?_, ?_⟩, ?_⟩
      · intro v hv
        obtain ⟨a, ha, rfl⟩ := List.mem_map.1 hv
        have hne : a.1 ∉ [(Var.stack, sizeOf 0 .stack)].map (·.1) := by
          simp only [List.map_cons, List.map_nil, List.mem_singleton]
          exact fun h => hst (h ▸ hv)
        rw [g2 _ hne]
        have := h3 a ha 0
        rw [hl a ha] at this
        simpa using this
      · exact fun v hv w hw => offs_disj (sizeOf c) l hl 0 v w hv hw
      · intro v hv hne
        rw [g2 v (by simpa using hne), h2 v hv]

theorem Overwritten.mono {vs ws : List Var} {size : Var → Nat} {src : Bytes} {m' : Mem} {off : Var → Nat}
    (h : Overwritten vs size src m' off) (hs : ∀ v ∈ ws, v ∈ vs) : Overwritten ws size src m' off :=
  ⟨fun v hv => h.1 v (hs v hv), fun v hv w hw => h.2 v (hs v hv) w (hs w hw)⟩

/-- The heap is wiped. -/
def HeapWiped (base : Nat) (w : Alloc.World) (heap : Alloc.St) : Prop :=
  (∀ b ∈ w.live, ∀ i, i < b.room → heap.mem (b.addr + i) = 0) ∧ ∀ a, base ≤ a → a < base + Alloc.STATIC → heap.mem a = 0

/-- C84: when a process of the TLS wrapper ends by itself, the TLS context (with session
keys, the private key's engine and the records), the cleartext buffers and the
addresses hold fresh random bytes, in places of the stream (`off`) that do not depend
on what was in memory; the heap and the arena are zero. -/
theorem c84_tlswrapper (c : Nat) : ∃ off, ∀ (base : Nat) (m : Mem) (w : Alloc.World) (s : Src) (r : Out (Mem × Alloc.St × Src)),
    Shape c m → Alloc.BaseOk base → Alloc.Reach base w → cleanup (tlswrapperList c) base m w.st s = some r →
    ∃ m' heap s', r = .ok (m', heap, s') ∧ Overwritten session (sizeOf c) s.fd.src m' off ∧ HeapWiped base w heap := by
  refine ⟨offs (tlswrapperList c) 0, ?_⟩
  intro base m w s r hm hb hr h
  obtain ⟨m', s', e, ho, -⟩ := cleanup_spec _ c base (show ((tlswrapperList c).map (·.1)).Nodup from (by decide : ((tlswrapperList 0).map (·.1)).Nodup))
    (by intro a ha; simp only [tlswrapperList, List.mem_cons, List.not_mem_nil, or_false] at ha; rcases ha with rfl | rfl | rfl | rfl | rfl | rfl | rfl | rfl | rfl | rfl <;> rfl)
    m w.st s hm (by simp [tlswrapperList]) r h
  obtain ⟨g1, g2, -⟩ := Alloc.c24_freeall hb hr
  exact ⟨m', _, s', e, ho.mono (by decide : ∀ v ∈ session, v ∈ (tlswrapperList 0).map (·.1)), g1, g2⟩

/-- C84 for the TCP wrapper. -/
theorem c84_tcp : ∃ off, ∀ (c base : Nat) (m : Mem) (w : Alloc.World) (s : Src) (r : Out (Mem × Alloc.St × Src)),
    Shape c m → Alloc.BaseOk base → Alloc.Reach base w → cleanup tcpList base m w.st s = some r →
    ∃ m' heap s', r = .ok (m', heap, s') ∧ Overwritten tcpSession (sizeOf c) s.fd.src m' off ∧ HeapWiped base w heap := by
  refine ⟨offs tcpList 0, ?_⟩
  intro c base m w s r hm hb hr h
  obtain ⟨m', s', e, ho, -⟩ := cleanup_spec _ c base (by decide : (tcpList.map (·.1)).Nodup)
    (by intro a ha; simp only [tcpList, List.mem_cons, List.not_mem_nil, or_false] at ha; rcases ha with rfl | rfl | rfl | rfl | rfl | rfl | rfl | rfl | rfl | rfl <;> rfl)
    m w.st s hm (by simp [tcpList]) r h
  obtain ⟨g1, g2, -⟩ := Alloc.c24_freeall hb hr
  exact ⟨m', _, s', e, ho.mono (by decide : ∀ v ∈ tcpSession, v ∈ tcpList.map (·.1)), g1, g2⟩

/-- C84 for the SMTP wrapper: only the addresses and the heap (where the lines, the
sender and the recipients are). What is missing: see `c84_smtp_keeps`. -/
theorem c84_smtp_partial : ∃ off, ∀ (c base : Nat) (m : Mem) (w : Alloc.World) (s : Src) (r : Out (Mem × Alloc.St × Src)),
    Shape c m → Alloc.BaseOk base → Alloc.Reach base w → cleanup smtpList base m w.st s = some r →
    ∃ m' heap s', r = .ok (m', heap, s') ∧ Overwritten [.localip, .localport, .remoteip, .remoteport] (sizeOf c) s.fd.src m' off ∧
      HeapWiped base w heap := by
  refine ⟨offs smtpList 0, ?_⟩
  intro c base m w s r hm hb hr h
  obtain ⟨m', s', e, ho, -⟩ := cleanup_spec _ c base (by decide : (smtpList.map (·.1)).Nodup)
    (by intro a ha; simp only [smtpList, List.mem_cons, List.not_mem_nil, or_false] at ha; rcases ha with rfl | rfl | rfl | rfl <;> rfl)
    m w.st s hm (by simp [smtpList]) r h
  obtain ⟨g1, g2, -⟩ := Alloc.c24_freeall hb hr
  exact ⟨m', _, s', e, ho.mono (by decide : ∀ v ∈ [Var.localip, .localport, .remoteip, .remoteport], v ∈ smtpList.map (·.1)), g1, g2⟩

/-- C84 is violated: the SMTP wrapper leaves its four payload buffers and the client's
address as text in memory, always (main_tlswrapper_smtp.c:68-78). -/
theorem c84_smtp_keeps (c base : Nat) (m : Mem) (heap : Alloc.St) (s : Src) (hm : Shape c m) (r : Out (Mem × Alloc.St × Src))
    (h : cleanup smtpList base m heap s = some r) :
    ∃ m' heap' s', r = .ok (m', heap', s') ∧ ∀ v ∈ [Var.smtpin, .smtpout, .smtpcin, .smtpcout, .remoteipstr], m' v = m v := by
  obtain ⟨m', s', e, -, hk⟩ := cleanup_spec _ c base (by decide : (smtpList.map (·.1)).Nodup)
    (by intro a ha; simp only [smtpList, List.mem_cons, List.not_mem_nil, or_false] at ha; rcases ha with rfl | rfl | rfl | rfl <;> rfl)
    m heap s hm (by simp [smtpList]) r h
  refine ⟨m', _, s', e, fun v hv => ?_⟩
  have := (by decide : ∀ v ∈ [Var.smtpin, .smtpout, .smtpcin, .smtpcout, .remoteipstr], v ∉ smtpList.map (·.1) ∧ v ≠ .stack) v hv
  exact hk v this.1 this.2

/-- C84 is violated in a small way by all programs: the last log record and its fields
(the client's address among them) stay in the buffers of log.c. -/
theorem c84_log_keeps (c base : Nat) (m : Mem) (heap : Alloc.St) (s : Src) (hm : Shape c m) (r : Out (Mem × Alloc.St × Src))
    (h : cleanup (tlswrapperList c) base m heap s = some r) :
    ∃ m' heap' s', r = .ok (m', heap', s') ∧ ∀ v ∈ [Var.logbuf, .logstatic, .logidbuf], m' v = m v := by
  obtain ⟨m', s', e, -, hk⟩ := cleanup_spec _ c base (show ((tlswrapperList c).map (·.1)).Nodup from (by decide : ((tlswrapperList 0).map (·.1)).Nodup))
    (by intro a ha; simp only [tlswrapperList, List.mem_cons, List.not_mem_nil, or_false] at ha; rcases ha with rfl | rfl | rfl | rfl | rfl | rfl | rfl | rfl | rfl | rfl <;> rfl)
    m heap s hm (by simp [tlswrapperList]) r h
  refine ⟨m', _, s', e, fun v hv => ?_⟩
  have := (by decide : ∀ v ∈ [Var.logbuf, .logstatic, .logidbuf], v ∉ (tlswrapperList 0).map (·.1) ∧ v ≠ .stack) v hv
  exact hk v this.1 this.2

theorem fillLoop_evs (evs : List RdEv) : ∀ (src : Bytes) (slept : Nat) (x : Bytes) (at_ xlen : Nat) (x' src' : Bytes) (evs' : List RdEv) (sl : Nat),
    xlen ≤ src.length → fillLoop evs src slept x at_ xlen = some (.ok (x', src', evs', sl)) → evs.countP brings ≤ evs'.countP brings + xlen := by
  induction evs with
  | nil => intros; simp
  | cons ev evs ih =>
    intro src slept x at_ xlen x' src' evs' sl hs h
    cases xlen with
    | zero => simp only [fillLoop] at h; cases h; omega
    | succ n =>
      cases ev with
      | data m =>
        simp only [fillLoop] at h
        generalize hi : (if n + 1 < 1048576 then n + 1 else 1048576) = i at h
        have hin : 1 ≤ i ∧ i ≤ n + 1 := by rw [← hi]; split <;> omega
        have hlen : (got src i m).length = min (min i (m + 1)) src.length := List.length_take
        generalize got src i m = g at hlen h
        rw [if_neg (by omega)] at h
        rw [List.countP_cons_of_pos rfl]
        split at h
        · cases h
        · have := ih _ _ _ _ _ _ _ _ _ (by rw [List.length_drop]; omega) h
          omega
      | eintr => rw [List.countP_cons_of_neg (by simp [brings])]; simp only [fillLoop] at h; exact ih _ _ _ _ _ _ _ _ _ hs h
      | eagain => rw [List.countP_cons_of_neg (by simp [brings])]; simp only [fillLoop] at h; exact ih _ _ _ _ _ _ _ _ _ hs h
      | err e => rw [List.countP_cons_of_neg (by simp [brings])]; simp only [fillLoop] at h; exact ih _ _ _ _ _ _ _ _ _ hs h

theorem randombytes_evs (s s' : Src) (x x' : Bytes) (n : Nat) (hn : n ≤ s.fd.src.length) (h : randombytes s x n = some (.ok (x', s'))) :
    s.fd.evs.countP brings ≤ s'.fd.evs.countP brings + n := by
  unfold randombytes at h
  cases hi : init s with
  | none => rw [hi] at h; cases h
  | some s1 =>
    obtain ⟨h1, h2, -⟩ := init_spec hi
    rw [hi] at h
    simp only [Int.toNat_natCast] at h
    split at h
    · cases h
    · cases h
    · rename_i hf
      cases h
      rw [h2] at hf
      exact fillLoop_evs _ _ _ _ _ _ _ _ _ _ hn hf

theorem wipe_returns (l : List (Var × Nat)) : ∀ (m : Mem) (s : Src), (∀ a ∈ l, (m a.1).length = a.2) → (l.map (·.1)).Nodup →
    s.opened = true → total l ≤ s.fd.src.length → total l ≤ s.fd.evs.countP brings →
    ∃ m' s', wipe l m s = some (.ok (m', s')) ∧ s'.opened = true ∧ s.fd.evs.countP brings ≤ s'.fd.evs.countP brings + total l := by
  induction l with
  | nil => intro m s _ _ ho _ _; exact ⟨m, s, rfl, ho, by omega⟩
  | cons a l ih =>
    intro m s hm hnd ho h1 h2
    obtain ⟨v, n⟩ := a
    have ht : total ((v, n) :: l) = n + total l := by simp [total]
    have hlen : (m v).length = n := hm (v, n) List.mem_cons_self
    rw [List.map_cons, List.nodup_cons] at hnd
    cases hr : randombytes s (m v) n with
    | none => exact absurd hr (c83_returns s (m v) n (.inl ho) (by omega) (by omega))
    | some r =>
      obtain ⟨-, s1, rfl, hs1, ho1⟩ := c83_filled s (m v) n (by omega) r hr
      have hc := randombytes_evs _ _ _ _ n (by omega) hr
      obtain ⟨m', s', e, h3, h4⟩ := ih (fun w => if w = v then s.fd.src.take n ++ (m v).drop n else m w) s1 (by
        intro a ha
        have : a.1 ≠ v := fun h => hnd.1 (h ▸ List.mem_map.2 ⟨a, ha, rfl⟩)
        simp only [this, if_false]
        exact hm a (List.mem_cons_of_mem _ ha)) hnd.2 ho1 (by rw [hs1, List.length_drop]; omega) (by omega)
      refine ⟨m', s', ?_, h3, by omega⟩
      unfold wipe
      rw [hr]
      exact e

/-- C84: the clean-up ends, so the process does: with the source open (it is opened
before `main`) and enough reads that bring something. -/
theorem c84_ends (l : List (Var × Nat)) (c base : Nat) (m : Mem) (heap : Alloc.St) (s : Src) (hm : Shape c m)
    (hl : l = tlswrapperList c ∨ l = tcpList ∨ l = smtpList) (ho : s.opened = true)
    (h1 : c + 40000 ≤ s.fd.src.length) (h2 : c + 40000 ≤ s.fd.evs.countP brings) :
    ∃ m' heap' s', cleanup l base m heap s = some (.ok (m', heap', s')) := by
  have hall : (∀ a ∈ l, a.2 = sizeOf c a.1) ∧ (l.map (·.1)).Nodup ∧ .stack ∉ l.map (·.1) ∧ total l ≤ c + 30000 := by
    rcases hl with rfl | rfl | rfl
    · refine ⟨?_, (by decide : ((tlswrapperList 0).map (·.1)).Nodup), (by decide : Var.stack ∉ (tlswrapperList 0).map (·.1)), ?_⟩
      · intro a ha; simp only [tlswrapperList, List.mem_cons, List.not_mem_nil, or_false] at ha
        rcases ha with rfl | rfl | rfl | rfl | rfl | rfl | rfl | rfl | rfl | rfl <;> rfl
      · simp only [total, tlswrapperList, sizeOf, List.map_cons, List.map_nil, List.sum_cons, List.sum_nil]; omega
    · refine ⟨?_, by decide, by decide, ?_⟩
      · intro a ha; simp only [tcpList, List.mem_cons, List.not_mem_nil, or_false] at ha
        rcases ha with rfl | rfl | rfl | rfl | rfl | rfl | rfl | rfl | rfl | rfl <;> rfl
      · simp only [total, tcpList, sizeOf, List.map_cons, List.map_nil, List.sum_cons, List.sum_nil]; omega
    · refine ⟨?_, by decide, by decide, ?_⟩
      · intro a ha; simp only [smtpList, List.mem_cons, List.not_mem_nil, or_false] at ha
        rcases ha with rfl | rfl | rfl | rfl <;> rfl
      · simp only [total, smtpList, sizeOf, List.map_cons, List.map_nil, List.sum_cons, List.sum_nil]; omega
  obtain ⟨k1, k2, k3, k4⟩ := hall
  have hsz : ∀ a ∈ l, (m a.1).length = a.2 := fun a ha => by rw [hm, k1 a ha]
  obtain ⟨m1, s1, e1, o1, c1⟩ := wipe_returns l m s hsz k2 ho (by omega) (by omega)
  obtain ⟨m1', s1', e, g1, g2, g3, -⟩ := wipe_spec l m s _ hsz k2 e1
  cases e
  have ht : total [(Var.stack, sizeOf 0 .stack)] = 4096 := by simp [total, sizeOf]
  obtain ⟨m2, s2, e2, -, -⟩ := wipe_returns [(Var.stack, sizeOf 0 .stack)] m1 s1
    (by intro a ha; rw [List.mem_singleton.1 ha]; show (m1 Var.stack).length = _; rw [g3 _ k3, hm]; rfl) (by simp) o1
    (by rw [g1, List.length_drop]; omega) (by omega)
  refine ⟨m2, (Alloc.freeall base heap).1, s2, ?_⟩
  unfold cleanup
  rw [e1]
  simp only [e2]

/-- The hypotheses are met: memory full of a secret, a source that gives a byte at a
time after failures, a heap with a live block. -/
example : ∃ (c base : Nat) (m : Mem) (w : Alloc.World) (s : Src) (r : Out (Mem × Alloc.St × Src)),
    Shape c m ∧ Alloc.BaseOk base ∧ Alloc.Reach base w ∧ w.live ≠ [] ∧ (∀ v, 0 < sizeOf c v → 42 ∈ m v) ∧
    cleanup (tlswrapperList c) base m w.st s = some r := by
  obtain ⟨w, h1, h2, -⟩ := Alloc.demo_reach
  let s : Src := ⟨true, [], ⟨List.replicate 60000 7, .err 5 :: List.replicate 60000 (.data 0)⟩, 0⟩
  obtain ⟨m', heap, s', h⟩ := c84_ends (tlswrapperList 20000) 20000 65536 (fun v => List.replicate (sizeOf 20000 v) 42) w.st s
    (fun v => List.length_replicate) (.inl rfl) rfl
    (by show _ ≤ (List.replicate 60000 7).length; rw [List.length_replicate]; omega)
    (by show _ ≤ (RdEv.err 5 :: List.replicate 60000 (.data 0)).countP brings
        rw [List.countP_cons_of_neg (by simp [brings]), List.countP_replicate, if_pos (by rfl)]; omega)
  refine ⟨20000, 65536, _, w, s, _, fun v => List.length_replicate, by unfold Alloc.BaseOk; decide, h1, by rw [h2]; simp, fun v hv => ?_, h⟩
  exact List.mem_replicate.2 ⟨by omega, rfl⟩

end Wipe
