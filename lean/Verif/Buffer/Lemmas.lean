import Verif.BaseLemmas
import Verif.Rw.Lemmas
import Verif.Str.Lemmas
import Verif.Buffer.Model
namespace Buffer
open Io

theorem allwriteLoop_ok (evs : List WrEv) (out x : Bytes) (r : Int) (fd : WFd)
    (h : allwriteLoop evs out x = some (r, fd)) :
    ∃ p q, x = p ++ q ∧ fd.out = out ++ p ∧
      ((r = 0 ∧ q = []) ∨ (r = -1 ∧ q ≠ [] ∧ ∃ u ev, evs = u ++ ev :: fd.evs ∧
        ((∃ pe, ev = .eagain pe) ∨ ∃ e, ev = .err e))) := by
  induction evs generalizing out x with
  | nil =>
    cases x with
    | nil =>
      simp only [allwriteLoop, Option.some.injEq, Prod.mk.injEq] at h
      obtain ⟨rfl, rfl⟩ := h
      exact ⟨[], [], by simp, by simp, .inl ⟨rfl, rfl⟩⟩
    | cons b x => simp [allwriteLoop] at h
  | cons ev evs ih =>
    cases x with
    | nil =>
      simp only [allwriteLoop, Option.some.injEq, Prod.mk.injEq] at h
      obtain ⟨rfl, rfl⟩ := h
      exact ⟨[], [], by simp, by simp, .inl ⟨rfl, rfl⟩⟩
    | cons b x =>
      have lift : ∀ {evs' : List WrEv} {q : Bytes}, ((r = 0 ∧ q = []) ∨ (r = -1 ∧ q ≠ [] ∧
          ∃ u ev, evs = u ++ ev :: evs' ∧ ((∃ pe, ev = .eagain pe) ∨ ∃ e, ev = .err e))) →
          ((r = 0 ∧ q = []) ∨ (r = -1 ∧ q ≠ [] ∧
          ∃ u ev', ev :: evs = u ++ ev' :: evs' ∧ ((∃ pe, ev' = .eagain pe) ∨ ∃ e, ev' = .err e))) := by
        intro evs' q hh
        rcases hh with hh | ⟨h1, h2, u, v, h3, h4⟩
        · exact .inl hh
        · exact .inr ⟨h1, h2, ev :: u, v, by rw [h3]; rfl, h4⟩
      cases ev with
      | data m =>
        rw [allwriteLoop] at h
        obtain ⟨p, q, e1, e2, e3⟩ := ih _ _ h
        refine ⟨put (b :: x) (min (b :: x).length OUTSIZE) m ++ p, q, ?_, ?_, lift e3⟩
        · rw [List.append_assoc, ← e1, Rw.put_append]
        · rw [e2, List.append_assoc]
      | zero =>
        rw [allwriteLoop] at h
        obtain ⟨p, q, e1, e2, e3⟩ := ih _ _ h
        exact ⟨p, q, e1, e2, lift e3⟩
      | eintr pe =>
        rw [allwriteLoop] at h
        obtain ⟨p, q, e1, e2, e3⟩ := ih _ _ h
        exact ⟨p, q, e1, e2, lift e3⟩
      | eagain pe =>
        simp only [allwriteLoop, Option.some.injEq, Prod.mk.injEq] at h
        obtain ⟨rfl, rfl⟩ := h
        exact ⟨[], b :: x, by simp, by simp, .inr ⟨rfl, by simp, [], _, rfl, .inl ⟨pe, rfl⟩⟩⟩
      | err e =>
        simp only [allwriteLoop, Option.some.injEq, Prod.mk.injEq] at h
        obtain ⟨rfl, rfl⟩ := h
        exact ⟨[], b :: x, by simp, by simp, .inr ⟨rfl, by simp, [], _, rfl, .inr ⟨e, rfl⟩⟩⟩

/-- The pending bytes. -/
def pending (b : OBuf) : Bytes := b.x.take b.p

/-- Storage invariant. -/
def OInv (b : OBuf) : Prop := b.p ≤ b.x.length

/-- Outcome of an output operation that adds `d` to the stream. -/
def OStep (b : OBuf) (d : Bytes) (r : Int) (b' : OBuf) : Prop :=
  OInv b' ∧ b'.x.length = b.x.length ∧ b.fd.out <+: b'.fd.out ∧
  ((r = 0 ∧ b'.fd.out ++ pending b' = b.fd.out ++ pending b ++ d) ∨
   (r = -1 ∧ ∃ p q, pending b ++ d = p ++ q ∧ q ≠ [] ∧ b'.fd.out = b.fd.out ++ p))

theorem flush_ok (b : OBuf) (r : Int) (b' : OBuf) (hb : OInv b) (h : flush b = some (r, b')) :
    OStep b [] r b' ∧ b'.x = b.x ∧ (r = 0 → b'.p = 0) ∧ (r = 0 ∨ r = -1) := by
  unfold flush at h
  cases h1 : allwrite b.fd (b.x.take b.p) with
  | none => rw [h1] at h; simp at h
  | some v =>
    obtain ⟨r1, fd⟩ := v
    rw [h1] at h
    obtain ⟨p, q, e1, e2, e3⟩ := allwriteLoop_ok _ _ _ _ _ h1
    rcases e3 with ⟨rfl, rfl⟩ | ⟨rfl, hq, -⟩
    · simp only [Int.lt_irrefl, if_false, Option.some.injEq, Prod.mk.injEq] at h
      obtain ⟨rfl, rfl⟩ := h
      simp only [List.append_nil] at e1
      refine ⟨⟨Nat.zero_le _, rfl, ⟨_, e2.symm⟩, .inl ⟨rfl, ?_⟩⟩, rfl, fun _ => rfl, .inl rfl⟩
      simp [pending, e2, e1]
    · simp only [show ((-1 : Int) < 0) from by decide, if_true, Option.some.injEq, Prod.mk.injEq] at h
      obtain ⟨rfl, rfl⟩ := h
      refine ⟨⟨hb, rfl, ⟨_, e2.symm⟩, .inr ⟨rfl, p, q, ?_, hq, e2⟩⟩, rfl, by simp, .inr rfl⟩
      simpa [pending] using e1

theorem copyN_at (x src : Bytes) (p : Nat) (n : Nat) (hn : n ≤ src.length) (h : p + n ≤ x.length) :
    ∃ x', copyN x p src n = .ok x' ∧ x'.length = x.length ∧
      x'.take (p + n) = x.take p ++ src.take n := by
  have e : x = x.take p ++ ((x.drop p).take n ++ x.drop (p + n)) := by
    rw [← List.drop_drop, List.take_append_drop, List.take_append_drop]
  have e2 : src = src.take n ++ src.drop n := (List.take_append_drop _ _).symm
  have hl : (x.take p).length = p := by simp; omega
  have hl2 : (src.take n).length = n := by simp; omega
  have hl3 : ((x.drop p).take n).length = n := by simp; omega
  have := copyN_ok (x.take p) ((x.drop p).take n) (x.drop (p + n)) (src.take n) (src.drop n)
    (by rw [hl3, hl2])
  rw [hl, hl2, ← e, ← e2] at this
  refine ⟨_, this, ?_, ?_⟩
  · simp only [List.length_append, hl, hl2, List.length_drop]; omega
  · rw [← List.append_assoc]
    have : p + n = (x.take p ++ src.take n).length := by simp only [List.length_append, hl, hl2]
    rw [this, List.take_left]

theorem putTail_ok (b : OBuf) (x : Bytes) (hb : OInv b)
    (hroom : x.length < b.x.length → b.p + x.length ≤ b.x.length)
    (hbig : b.x.length ≤ x.length → b.p = 0) :
    putTail b x = .ok none ∨ ∃ r b', putTail b x = .ok (some (r, b')) ∧ OStep b x r b' := by
  unfold putTail
  by_cases hc : x.length ≥ b.x.length
  · rw [if_pos hc]
    have hp := hbig hc
    cases h1 : allwrite b.fd x with
    | none => left; rfl
    | some v =>
      obtain ⟨r, fd⟩ := v
      right
      obtain ⟨p, q, e1, e2, e3⟩ := allwriteLoop_ok _ _ _ _ _ h1
      refine ⟨r, _, rfl, hb, rfl, ⟨_, e2.symm⟩, ?_⟩
      rcases e3 with ⟨rfl, rfl⟩ | ⟨rfl, hq, -⟩
      · left
        refine ⟨rfl, ?_⟩
        simp only [List.append_nil] at e1
        simp [pending, hp, e2, e1]
      · right
        refine ⟨rfl, p, q, ?_, hq, e2⟩
        simp [pending, hp, e1]
  · rw [if_neg hc]
    right
    obtain ⟨x', h1, h2, h3⟩ := copyN_at b.x x b.p x.length (Nat.le_refl _) (hroom (by omega))
    rw [h1]
    refine ⟨0, _, rfl, ?_, h2, ⟨[], by simp⟩, .inl ⟨rfl, ?_⟩⟩
    · simp only [OInv, h2]; exact hroom (by omega)
    · simp [pending, h3]

theorem ostep_trans {b b1 b2 : OBuf} {d d' : Bytes} {r : Int} (h1 : OStep b d 0 b1)
    (h2 : OStep b1 d' r b2) : OStep b (d ++ d') r b2 := by
  obtain ⟨i1, l1, m1, c1⟩ := h1
  obtain ⟨i2, l2, m2, c2⟩ := h2
  rcases c1 with ⟨-, c1⟩ | ⟨c1, -⟩
  · refine ⟨i2, by rw [l2, l1], m1.trans m2, ?_⟩
    rcases c2 with ⟨rfl, c2⟩ | ⟨rfl, p, q, e, hq, c2⟩
    · left; refine ⟨rfl, ?_⟩; rw [c2, c1]; simp
    · right
      refine ⟨rfl, ?_⟩
      obtain ⟨w, hw⟩ := m1.trans m2
      have tot : b1.fd.out ++ (p ++ q) = b.fd.out ++ (pending b ++ (d ++ d')) := by
        rw [← e, ← List.append_assoc, c1]; simp
      rw [← List.append_assoc, ← c2, ← hw, List.append_assoc] at tot
      exact ⟨w, q, (List.append_cancel_left tot).symm, hq, hw.symm⟩
  · exact absurd c1 (by decide)

theorem bput_ok (b : OBuf) (x : Bytes) (hb : OInv b) :
    bput b x = .ok none ∨ ∃ r b', bput b x = .ok (some (r, b')) ∧ OStep b x r b' := by
  unfold bput
  unfold OInv at hb
  by_cases hc : x.length > b.x.length - b.p
  · simp only []
    rw [if_pos hc]
    obtain ⟨x', h1, h2, h3⟩ := copyN_at b.x x b.p (b.x.length - b.p) (by omega) (by omega)
    rw [h1]
    simp only [Out.ok_bind]
    cases hf : flush { b with x := x', p := b.p + (b.x.length - b.p) } with
    | none => left; rfl
    | some v =>
      obtain ⟨r, b1⟩ := v
      obtain ⟨h4, h5, h6, h7⟩ := flush_ok _ _ _ (by simp [OInv, h2]; omega) hf
      -- the fill step
      have hfill : OStep b (x.take (b.x.length - b.p)) 0
          { b with x := x', p := b.p + (b.x.length - b.p) } :=
        ⟨by simp [OInv, h2]; omega, h2, ⟨[], by simp⟩, .inl ⟨rfl, by simp [pending, h3]⟩⟩
      have h8 := ostep_trans hfill h4
      rw [List.append_nil] at h8
      rcases h7 with rfl | rfl
      · simp only [show ¬ ((0 : Int) = -1) from by decide, if_false]
        have hp : b1.p = 0 := h6 rfl
        rcases putTail_ok b1 (x.drop (b.x.length - b.p)) h8.1 (by omega) (fun _ => hp) with h9 | ⟨r, b2, h9, h10⟩
        · left; exact h9
        · right
          refine ⟨r, b2, h9, ?_⟩
          have := ostep_trans h8 h10
          rwa [List.take_append_drop] at this
      · right
        refine ⟨-1, b1, rfl, h8.1, h8.2.1, h8.2.2.1, .inr ⟨rfl, ?_⟩⟩
        rcases h8.2.2.2 with ⟨h, _⟩ | ⟨-, p, q, e, hq, ho⟩
        · exact absurd h (by decide)
        · refine ⟨p, q ++ x.drop (b.x.length - b.p), ?_, by simp [hq], ho⟩
          rw [← List.append_assoc, ← e, List.append_assoc, List.take_append_drop]
  · simp only []
    rw [if_neg hc]
    exact putTail_ok b x hb (by omega) (by omega)

theorem putflush_ok (b : OBuf) (x : Bytes) (hb : OInv b) :
    putflush b x = none ∨ ∃ r b', putflush b x = some (r, b') ∧ OStep b x r b' ∧ (r = 0 → b'.p = 0) := by
  unfold putflush
  cases hf : flush b with
  | none => left; rfl
  | some v =>
    obtain ⟨r, b1⟩ := v
    obtain ⟨h4, h5, h6, h7⟩ := flush_ok _ _ _ hb hf
    rcases h7 with rfl | rfl
    · simp only [show ¬ ((0 : Int) = -1) from by decide, if_false]
      have hp : b1.p = 0 := h6 rfl
      cases ha : allwrite b1.fd x with
      | none => left; rfl
      | some v =>
        obtain ⟨r, fd⟩ := v
        right
        obtain ⟨p, q, e1, e2, e3⟩ := allwriteLoop_ok _ _ _ _ _ ha
        refine ⟨r, { b1 with fd := fd }, rfl, ?_, fun _ => hp⟩
        have h8 : OStep b1 x r { b1 with fd := fd } := by
          refine ⟨h4.1, rfl, ⟨_, e2.symm⟩, ?_⟩
          rcases e3 with ⟨rfl, rfl⟩ | ⟨rfl, hq, -⟩
          · left
            simp only [List.append_nil] at e1
            exact ⟨rfl, by simp [pending, hp, e2, e1]⟩
          · right; exact ⟨rfl, p, q, by simp [pending, hp, e1], hq, e2⟩
        have := ostep_trans h4 h8
        rwa [List.nil_append] at this
    · right
      refine ⟨-1, b1, rfl, ?_, by simp⟩
      refine ⟨h4.1, h4.2.1, h4.2.2.1, .inr ⟨rfl, ?_⟩⟩
      rcases h4.2.2.2 with ⟨h, _⟩ | ⟨-, p, q, e, hq, ho⟩
      · exact absurd h (by decide)
      · refine ⟨p, q ++ x, ?_, by simp [hq], ho⟩
        rw [← List.append_assoc, ← e, List.append_nil]

theorem putc_ok (b : OBuf) (c : Byte) (hb : OInv b) :
    putc b c = .ok none ∨ ∃ r b', putc b c = .ok (some (r, b')) ∧ OStep b [c] r b' := by
  unfold putc
  by_cases hc : b.x.length ≠ b.p
  · rw [if_pos hc]
    unfold OInv at hb
    right
    have hlt : b.p < b.x.length := by omega
    rw [wr_lt _ _ _ hlt]
    refine ⟨0, _, rfl, ?_, by simp, ⟨[], by simp⟩, .inl ⟨rfl, ?_⟩⟩
    · simp [OInv]; omega
    · simp only [pending, List.append_assoc]
      rw [List.take_succ_eq_append_getElem (by simpa using hlt)]
      simp [List.take_set_of_le]
  · rw [if_neg hc]; exact bput_ok b [c] hb

/-- Input buffer invariant and the bytes available. -/
def IInv (b : IBuf) : Prop := b.n + b.p = b.x.length
def avail (b : IBuf) : Bytes := (b.x.drop b.n).take b.p

theorem onereadLoop_ok (src : Bytes) (k : Nat) (evs : List RdEv) (r : Int) (g : Bytes) (fd : RFd)
    (h : onereadLoop src k evs = some (r, g, fd)) :
    src = g ++ fd.src ∧ g.length ≤ k ∧
      ((r = g.length ∧ (g = [] → 0 < k → src = [])) ∨
       (r = -1 ∧ g = [] ∧ ∃ u ev, evs = u ++ ev :: fd.evs ∧ (ev = .eagain ∨ ∃ e, ev = .err e))) := by
  induction evs with
  | nil => simp [onereadLoop] at h
  | cons ev evs ih =>
    cases ev with
    | data m =>
      simp only [onereadLoop, Option.some.injEq, Prod.mk.injEq] at h
      obtain ⟨rfl, rfl, rfl⟩ := h
      have hle := Rw.got_length_le src (min k INSIZE) m
      refine ⟨(Rw.got_append _ _ _).symm, by omega, .inl ⟨rfl, fun hg hk => ?_⟩⟩
      exact (Rw.got_nil src (min k INSIZE) m (by simp [INSIZE]; omega)).mp (by rw [hg]; rfl)
    | eintr =>
      rw [onereadLoop] at h
      obtain ⟨h1, h2, h3⟩ := ih h
      refine ⟨h1, h2, ?_⟩
      rcases h3 with h3 | ⟨h4, h5, u, v, h6, h7⟩
      · exact .inl h3
      · exact .inr ⟨h4, h5, .eintr :: u, v, by rw [h6]; rfl, h7⟩
    | eagain =>
      simp only [onereadLoop, Option.some.injEq, Prod.mk.injEq] at h
      obtain ⟨rfl, rfl, rfl⟩ := h
      exact ⟨by simp, by simp, .inr ⟨rfl, rfl, [], _, rfl, .inl rfl⟩⟩
    | err e =>
      simp only [onereadLoop, Option.some.injEq, Prod.mk.injEq] at h
      obtain ⟨rfl, rfl, rfl⟩ := h
      exact ⟨by simp, by simp, .inr ⟨rfl, rfl, [], _, rfl, .inr ⟨e, rfl⟩⟩⟩

theorem moveUp_ok (x : Bytes) (n r : Nat) (hn : 0 < n) (h : n + r ≤ x.length) :
    ∃ x', moveUp x n r = .ok x' ∧ x'.length = x.length ∧
      (∀ j, j < r → x'[n + j]? = x[j]?) ∧
      (∀ j, j < n ∨ n + r ≤ j → x'[j]? = x[j]?) := by
  induction r generalizing x with
  | zero => exact ⟨x, rfl, rfl, by omega, fun _ _ => rfl⟩
  | succ i ih =>
    rw [moveUp, rd_lt _ _ (by omega)]
    simp only [Out.ok_bind]
    rw [wr_lt _ _ _ (by omega)]
    simp only []
    obtain ⟨x', h1, h2, h3, h4⟩ := ih (x.set (n + i) x[i]) (by simp; omega)
    refine ⟨x', h1, by simpa using h2, ?_, ?_⟩
    · intro j hj
      by_cases hji : j < i
      · rw [h3 j hji, List.getElem?_set_ne (by omega)]
      · have : j = i := by omega
        subst this
        rw [h4 (n + j) (by omega)]
        rw [List.getElem?_set_self (by omega), List.getElem?_eq_getElem (by omega)]
    · intro j hj
      rw [h4 j (by omega), List.getElem?_set_ne (by omega)]

/-- Outcome of one input operation that delivered `d`. -/
def IStep (b : IBuf) (d : Bytes) (b' : IBuf) : Prop :=
  IInv b' ∧ b'.x.length = b.x.length ∧ avail b ++ b.fd.src = d ++ avail b' ++ b'.fd.src

/-- A read error was reported. -/
def RFail (b b' : IBuf) : Prop :=
  ∃ u ev, b.fd.evs = u ++ ev :: b'.fd.evs ∧ (ev = .eagain ∨ ∃ e, ev = .err e)

theorem avail_nil (b : IBuf) (h : b.p = 0) : avail b = [] := by simp [avail, h]
theorem avail_length (b : IBuf) (h : IInv b) : (avail b).length = b.p := by
  unfold IInv at h
  simp [avail]; omega

theorem feed_ok (b : IBuf) (hb : IInv b) :
    feed b = .ok none ∨ ∃ r b', feed b = .ok (some (r, b')) ∧ IStep b [] b' ∧
      ((r = b'.p ∧ (r = 0 → 0 < b.x.length → b.fd.src = [] ∧ avail b = [])) ∨
       (r = -1 ∧ avail b = [] ∧ b'.fd.src = b.fd.src ∧ b'.p = 0 ∧ RFail b b')) := by
  have hb' := hb
  unfold IInv at hb'
  unfold feed
  by_cases hp : b.p ≠ 0
  · rw [if_pos hp]
    right
    exact ⟨_, b, rfl, ⟨hb, rfl, by simp⟩, .inl ⟨rfl, by omega⟩⟩
  · rw [if_neg hp]
    have hp0 : b.p = 0 := by omega
    cases h1 : oneread b.fd b.n with
    | none => left; rfl
    | some v =>
      obtain ⟨r, g, fd⟩ := v
      simp only []
      obtain ⟨e1, e2, e3⟩ := onereadLoop_ok _ _ _ _ _ _ h1
      right
      by_cases hr : r ≤ 0
      · rw [if_pos hr]
        refine ⟨r, _, rfl, ?_⟩
        rcases e3 with ⟨rfl, e4⟩ | ⟨rfl, rfl, e4⟩
        · have hg : g = [] := List.length_eq_zero_iff.mp (by omega)
          subst hg
          refine ⟨⟨hb, rfl, ?_⟩, .inl ⟨by simp [hp0], fun _ hpos => ⟨e4 rfl (by omega), avail_nil b hp0⟩⟩⟩
          simp [avail, e1]
        · refine ⟨⟨hb, rfl, ?_⟩, .inr ⟨rfl, avail_nil b hp0, by simpa using e1.symm, hp0, e4⟩⟩
          simp [avail, e1]
      · rw [if_neg hr]
        rcases e3 with ⟨rfl, e4⟩ | ⟨rfl, _⟩
        · obtain ⟨x1, c1, c2, c3⟩ := copyN_at b.x g 0 g.length (Nat.le_refl _) (by omega)
          rw [c1]
          simp only [Out.ok_bind]
          have c3' : x1.take g.length = g := by simpa using c3
          by_cases hn : b.n - g.length > 0
          · rw [if_pos hn]
            obtain ⟨x2, m1, m2, m3, m4⟩ := moveUp_ok x1 (b.n - g.length) g.length hn (by omega)
            rw [m1]
            have hav : (x2.drop (b.n - g.length)).take g.length = g := by
              apply List.ext_getElem?
              intro i
              by_cases hi : i < g.length
              · rw [List.getElem?_take_of_lt hi, List.getElem?_drop, m3 i hi]
                rw [← List.getElem?_take_of_lt hi, c3']
              · rw [List.getElem?_eq_none (by simp; omega), List.getElem?_eq_none (by omega)]
            refine ⟨_, _, rfl, ⟨?_, by simp [m2, c2], ?_⟩, .inl ⟨rfl, by omega⟩⟩
            · simp only [IInv, m2, c2]; omega
            · simp only [avail, hav, hp0]; simpa using e1
          · rw [if_neg hn]
            have : b.n - g.length = 0 := by omega
            refine ⟨_, _, rfl, ⟨?_, by simp [c2], ?_⟩, .inl ⟨rfl, by omega⟩⟩
            · simp only [IInv, c2]; omega
            · simp only [avail, this, List.drop_zero, c3', hp0]; simpa using e1
        · omega

theorem getthis_ok (b : IBuf) (k : Nat) (hb : IInv b) (hp : 0 < b.p) :
    ∃ d b', getthis b k = .ok ((d.length : Nat), d, b') ∧ IStep b d b' ∧ d.length ≤ k ∧
      (0 < k → d ≠ []) := by
  unfold IInv at hb
  unfold getthis slice
  have hk : (if k > b.p then b.p else k) = min k b.p := by split <;> omega
  rw [hk]
  simp only []
  rw [if_pos (by omega)]
  have hl : ((b.x.drop b.n).take (min k b.p)).length = min k b.p := by simp; omega
  refine ⟨(b.x.drop b.n).take (min k b.p), { b with p := b.p - min k b.p, n := b.n + min k b.p }, by simp only [Out.ok_bind, hl]; rfl, ⟨?_, rfl, ?_⟩, by omega, ?_⟩
  · simp only [IInv]; omega
  · simp only [avail]
    congr 1
    rw [← List.drop_drop]
    have : b.p = min k b.p + (b.p - min k b.p) := by omega
    conv => lhs; rw [this]
    rw [List.take_add]
  · intro h hd
    have := congrArg List.length hd
    rw [hl] at this
    simp at this
    omega

theorem bget_ok (b : IBuf) (k : Nat) (hb : IInv b) :
    bget b k = .ok none ∨ ∃ r d b', bget b k = .ok (some (r, d, b')) ∧ IStep b d b' ∧ d.length ≤ k ∧
      ((r = d.length ∧ (d = [] → 0 < k → b.fd.src = [] ∧ avail b = [])) ∨
       (r = -1 ∧ d = [] ∧ RFail b b')) := by
  have hb' := hb
  unfold IInv at hb'
  unfold bget
  by_cases hp : b.p > 0
  · rw [if_pos hp]
    right
    obtain ⟨d, b', h1, h2, h3, h4⟩ := getthis_ok b k hb hp
    rw [h1]
    exact ⟨_, d, b', rfl, h2, h3, .inl ⟨rfl, fun hd hk => absurd hd (h4 hk)⟩⟩
  · rw [if_neg hp]
    have hp0 : b.p = 0 := by omega
    by_cases hn : b.n ≤ k
    · rw [if_pos hn]
      cases h1 : oneread b.fd k with
      | none => left; rfl
      | some v =>
        obtain ⟨r, g, fd⟩ := v
        obtain ⟨e1, e2, e3⟩ := onereadLoop_ok _ _ _ _ _ _ h1
        right
        refine ⟨r, g, _, rfl, ⟨hb, rfl, ?_⟩, e2, ?_⟩
        · simp only [avail, hp0]; simpa using e1
        · rcases e3 with ⟨e3, e4⟩ | e3
          · exact .inl ⟨e3, fun h1 h2 => ⟨e4 h1 h2, avail_nil b hp0⟩⟩
          · exact .inr e3
    · rw [if_neg hn]
      rcases feed_ok b hb with h1 | ⟨r, b1, h1, h2, h3⟩
      · left; rw [h1]; rfl
      · rw [h1]
        simp only [Out.ok_bind]
        by_cases hr : r ≤ 0
        · rw [if_pos hr]
          right
          refine ⟨r, [], b1, rfl, h2, by simp, ?_⟩
          rcases h3 with ⟨h3, h4⟩ | ⟨h3, h4, h5, h6, h7⟩
          · have : r = 0 := by omega
            exact .inl ⟨by simpa using this, fun _ hk => h4 this (by omega)⟩
          · exact .inr ⟨h3, rfl, h7⟩
        · rw [if_neg hr]
          right
          rcases h3 with ⟨h3, h4⟩ | ⟨h3, _⟩
          · obtain ⟨d, b2, g1, g2, g3, g4⟩ := getthis_ok b1 k h2.1 (by omega)
            rw [g1]
            refine ⟨_, d, b2, rfl, ⟨g2.1, by rw [g2.2.1, h2.2.1], ?_⟩, g3, .inl ⟨rfl, fun hd hk => absurd hd (g4 hk)⟩⟩
            rw [h2.2.2, List.nil_append, g2.2.2]
          · omega

theorem getc_ok (b : IBuf) (hb : IInv b) :
    getc b = .ok none ∨ ∃ r d b', getc b = .ok (some (r, d, b')) ∧ IStep b d b' ∧ d.length ≤ 1 ∧
      ((r = d.length ∧ (d = [] → b.fd.src = [] ∧ avail b = [])) ∨
       (r = -1 ∧ d = [] ∧ RFail b b')) := by
  unfold getc
  by_cases hp : b.p > 0
  · rw [if_pos hp]
    right
    unfold IInv at hb
    rw [rd_lt _ _ (by omega)]
    refine ⟨1, [b.x[b.n]'(by omega)], _, rfl, ⟨?_, rfl, ?_⟩, by simp, .inl ⟨by simp, by simp⟩⟩
    · simp only [IInv]; omega
    · simp only [avail]
      congr 1
      have hlt : b.n < b.x.length := by omega
      rw [List.drop_eq_getElem_cons hlt]
      have : b.p = (b.p - 1) + 1 := by omega
      conv => lhs; rw [this]
      rfl
  · rw [if_neg hp]
    rcases bget_ok b 1 hb with h | ⟨r, d, b', h1, h2, h3, h4⟩
    · exact .inl h
    · refine .inr ⟨r, d, b', h1, h2, h3, ?_⟩
      rcases h4 with ⟨h4, h5⟩ | h4
      · exact .inl ⟨h4, fun hd => h5 hd (by omega)⟩
      · exact .inr h4

theorem oneread_evs (src : Bytes) (k : Nat) (evs : List RdEv) (r : Int) (g : Bytes) (fd : RFd)
    (h : onereadLoop src k evs = some (r, g, fd)) : ∃ u, evs = u ++ fd.evs := by
  induction evs with
  | nil => simp [onereadLoop] at h
  | cons ev evs ih =>
    cases ev <;> simp only [onereadLoop, Option.some.injEq, Prod.mk.injEq] at h
    case eintr =>
      obtain ⟨u, hu⟩ := ih h
      exact ⟨.eintr :: u, by rw [hu]; rfl⟩
    all_goals
      obtain ⟨-, -, rfl⟩ := h
      exact ⟨[_], rfl⟩

theorem feed_evs (b : IBuf) (r : Int) (b' : IBuf) (h : feed b = .ok (some (r, b'))) :
    ∃ u, b.fd.evs = u ++ b'.fd.evs := by
  unfold feed at h
  by_cases hp : b.p ≠ 0
  · rw [if_pos hp] at h
    simp only [Out.ok.injEq, Option.some.injEq, Prod.mk.injEq] at h
    obtain ⟨-, rfl⟩ := h
    exact ⟨[], rfl⟩
  · rw [if_neg hp] at h
    cases h1 : oneread b.fd b.n with
    | none => rw [h1] at h; simp at h
    | some v =>
      obtain ⟨r1, g, fd⟩ := v
      obtain ⟨u, hu⟩ := oneread_evs _ _ _ _ _ _ h1
      rw [h1] at h
      simp only [] at h
      refine ⟨u, ?_⟩
      by_cases hr : r1 ≤ 0
      · rw [if_pos hr] at h
        simp only [Out.ok.injEq, Option.some.injEq, Prod.mk.injEq] at h
        obtain ⟨-, rfl⟩ := h
        exact hu
      · rw [if_neg hr] at h
        cases h2 : copyN b.x 0 g g.length with
        | ub => rw [h2] at h; simp at h
        | ok x =>
          rw [h2] at h
          simp only [Out.ok_bind] at h
          have fin : ∀ x2 : Bytes, (pure (some (r1, (⟨x2, g.length, b.n - g.length, fd⟩ : IBuf))) :
              Out (Option (Int × IBuf))) = .ok (some (r, b')) → b.fd.evs = u ++ b'.fd.evs := by
            intro x2 h
            have h := Out.ok.inj h
            simp only [Option.some.injEq, Prod.mk.injEq] at h
            obtain ⟨-, rfl⟩ := h
            exact hu
          by_cases hn : b.n - g.length > 0
          · rw [if_pos hn] at h
            cases h3 : moveUp x (b.n - g.length) g.length with
            | ub => rw [h3] at h; simp at h
            | ok x2 => rw [h3] at h; exact fin x2 h
          · rw [if_neg hn] at h
            exact fin x h

end Buffer
