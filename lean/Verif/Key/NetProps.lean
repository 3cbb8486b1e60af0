import Verif.Key.Whole
import Verif.Key.SafeProps
/-
C56: the two ends of the request pipes agree.
-/
namespace Key
open Io Pipe Rw

/-- A message as it travels. -/
def frame (x : Bytes) : Bytes := uint64_pack x.length ++ x

/-- No call on these pipe ends fails. -/
def RGood (evs : List RdEv) : Prop := ∀ e, .err e ∉ evs
def WGood (evs : List WrEv) : Prop :=
  .zero ∉ evs ∧ .eintr .err ∉ evs ∧ .eagain .err ∉ evs ∧ ∀ e, .err e ∉ evs

theorem writeall_good (fd : WFd) (x : Bytes) (hg : WGood fd.evs) :
    writeall fd x = none ∨ ∃ evs, writeall fd x = some (0, ⟨fd.out ++ x, evs⟩) ∧ WGood evs := by
  unfold writeall
  obtain ⟨out, evs⟩ := fd
  simp only [] at hg ⊢
  fun_induction writeallLoop evs out x with
  | case1 evs out => exact .inr ⟨evs, by simp, hg⟩
  | case2 => exact .inl rfl
  | case3 m evs out b x p ih =>
    have hg' : WGood evs := by
      obtain ⟨h1, h2, h3, h4⟩ := hg
      exact ⟨fun h => h1 (.tail _ h), fun h => h2 (.tail _ h), fun h => h3 (.tail _ h), fun e h => h4 e (.tail _ h)⟩
    rcases ih hg' with h | ⟨evs', h, h'⟩
    · exact .inl h
    · right
      refine ⟨evs', ?_, h'⟩
      rw [h]
      congr 3
      have : p ++ (b :: x).drop p.length = b :: x := by
        simp only [p, put]
        rw [List.length_take]
        generalize hk : min (min (b :: x).length CHUNK) (m + 1) = k
        have : min k (b :: x).length = k := by omega
        rw [this, List.take_append_drop]
      rw [List.append_assoc, this]
  | case4 => exact absurd (List.mem_cons_self ..) hg.1
  | case5 => exact absurd (List.mem_cons_self ..) hg.2.1
  | case6 p evs out b x hp ih =>
    obtain ⟨h1, h2, h3, h4⟩ := hg
    exact ih ⟨fun h => h1 (.tail _ h), fun h => h2 (.tail _ h), fun h => h3 (.tail _ h), fun e h => h4 e (.tail _ h)⟩
  | case7 => exact absurd (List.mem_cons_self ..) hg.2.2.1
  | case8 p evs out b x hp ih =>
    obtain ⟨h1, h2, h3, h4⟩ := hg
    exact ih ⟨fun h => h1 (.tail _ h), fun h => h2 (.tail _ h), fun h => h3 (.tail _ h), fun e h => h4 e (.tail _ h)⟩
  | case9 e => exact absurd (List.mem_cons_self ..) (hg.2.2.2 e)

theorem pipe_write_good (fd : WFd) (x : Bytes) (hg : WGood fd.evs) :
    pipe_write fd x = none ∨ ∃ evs, pipe_write fd x = some (0, ⟨fd.out ++ frame x, evs⟩) ∧ WGood evs := by
  unfold pipe_write
  rcases writeall_good fd (uint64_pack x.length) hg with h | ⟨evs, h, hg1⟩
  · rw [h]; exact .inl rfl
  · rw [h]
    simp only [Option.bind_eq_bind, Option.bind_some]
    rw [if_neg (by decide)]
    rcases writeall_good ⟨fd.out ++ uint64_pack x.length, evs⟩ x hg1 with h | ⟨evs', h, hg2⟩
    · rw [h]; exact .inl rfl
    · rw [h]
      simp only [Option.bind_some]
      rw [if_neg (by decide)]
      exact .inr ⟨evs', by rw [frame, List.append_assoc], hg2⟩

theorem pipe_writeerrno_good (fd : WFd) (e : Int) (hg : WGood fd.evs) :
    pipe_writeerrno fd e = none ∨ ∃ evs, pipe_writeerrno fd e = some (0, ⟨fd.out ++ uint64_pack (-e), evs⟩) ∧ WGood evs := by
  unfold pipe_writeerrno
  rcases writeall_good fd (uint64_pack (-e)) hg with h | ⟨evs, h, hg1⟩
  · rw [h]; exact .inl rfl
  · rw [h]
    simp only [Option.bind_eq_bind, Option.bind_some]
    rw [if_neg (by decide)]
    exact .inr ⟨evs, rfl, hg1⟩

theorem frame_is (x : Bytes) (h : x.length < 2 ^ 63) : Pipe.Spec.Frame (frame x) x :=
  ⟨uint64_pack x.length, header_pack _ (by omega), rfl⟩

/-! ### Running either side -/

/-- Unless it is still waiting, the network side gets here. -/
def Net.Go {α : Type} (m : Net.M α) (n : Net.N) (Q : α → Net.N → Prop) : Prop :=
  match m n with
  | .ok a n => Q a n
  | .blocked _ => True
  | _ => False

/-- Unless it is still waiting, the network side fails here. -/
def Net.Fails {α : Type} (m : Net.M α) (n : Net.N) (Q : Net.N → Prop) : Prop :=
  match m n with
  | .fail n => Q n
  | .blocked _ => True
  | _ => False

/-- Unless it is still waiting, the key side gets here. -/
def Go {α : Type} (m : K α) (s : S) (Q : α → S → Prop) : Prop :=
  match m s with
  | .ok a s => Q a s
  | .blocked _ => True
  | _ => False

/-- The network side has written `o` and will read `i`. -/
def Net.At (o i : Bytes) (n : Net.N) : Prop :=
  n.to.out = o ∧ n.fr.src = i ∧ WGood n.to.evs ∧ RGood n.fr.evs

/-- The key side will read `i`, has written `o` and did `l`. -/
def KAt (i o : Bytes) (l : List Act) (s : S) : Prop :=
  s.inp.src = i ∧ s.out.out = o ∧ s.log = l ∧ RGood s.inp.evs ∧ WGood s.out.evs

namespace Net

theorem Go.bind {α β : Type} {m : M α} {f : α → M β} {n : N} {Q : β → N → Prop}
    (h : Go m n fun a n => Go (f a) n Q) : Go (m >>= f) n Q := by
  unfold Go at h ⊢
  have e : (m >>= f) n = match m n with | .ok a s => f a s | .fail n => .fail n | .blocked n => .blocked n | .ub n => .ub n := rfl
  rw [e]
  revert h
  cases m n <;> exact id

theorem Go.mono {α : Type} {m : M α} {n : N} {Q Q' : α → N → Prop} (h : Go m n Q) (hq : ∀ a n, Q a n → Q' a n) : Go m n Q' := by
  unfold Go at h ⊢
  revert h
  cases m n <;> first | exact hq _ _ | exact id

theorem Go.pure {α : Type} {a : α} {n : N} {Q : α → N → Prop} (h : Q a n) : Go (Pure.pure a) n Q := h

theorem Fails.bind {α β : Type} {m : M α} {f : α → M β} {n : N} {Q : N → Prop}
    (h : Go m n fun a n => Fails (f a) n Q) : Fails (m >>= f) n Q := by
  unfold Go at h
  unfold Fails
  have e : (m >>= f) n = match m n with | .ok a s => f a s | .fail n => .fail n | .blocked n => .blocked n | .ub n => .ub n := rfl
  rw [e]
  revert h
  cases m n <;> first | exact id | exact False.elim

theorem Fails.here {α : Type} {n : N} {Q : N → Prop} (h : Q n) : Fails (fail : M α) n Q := h

theorem Go.orFail {α : Type} {m : M α} {n : N} {Q : Option α → N → Prop} (h : Go m n fun a n => Q (some a) n) : Go (orFail m) n Q := by
  unfold Go Net.orFail at *
  revert h
  cases m n <;> first | exact id | exact False.elim

theorem Fails.orFail {α : Type} {m : M α} {n : N} {Q : Option α → N → Prop} (h : Fails m n fun n => Q none n) : Go (orFail m) n Q := by
  unfold Go Fails Net.orFail at *
  revert h
  cases m n <;> first | exact id | exact False.elim

theorem Go.write {o i x : Bytes} {n : N} (h : At o i n) : Go (Net.write x) n fun _ n => At (o ++ frame x) i n := by
  unfold Go Net.write
  obtain ⟨h1, h2, h3, h4⟩ := h
  rcases pipe_write_good n.to x h3 with e | ⟨evs, e, hg⟩
  · rw [e]; trivial
  · rw [e]
    simp only []
    rw [if_neg (by decide)]
    exact ⟨by simp [h1], h2, hg, h4⟩

theorem Go.readall {o i x : Bytes} {n : N} (hx : x.length ≤ LIMIT) (h : At o (frame x ++ i) n) :
    Go (Net.readall x.length) n fun y n => y = x ∧ At o i n := by
  have hL : LIMIT = 1048576 := rfl
  unfold Go Net.readall
  obtain ⟨h1, h2, h3, h4⟩ := h
  rcases c17_readall n.fr _ x i (frame_is x (by omega)) hx h2 h4 with e | ⟨evs, e, hg⟩
  · rw [e]; trivial
  · rw [e]
    simp only []
    rw [if_neg (by decide)]
    exact ⟨rfl, h1, rfl, h3, hg⟩

theorem Go.readmax {o i x : Bytes} {n : N} {max : Nat} (hm : max ≤ LIMIT) (hx : x.length ≤ max) (h : At o (frame x ++ i) n) :
    Go (Net.readmax max) n fun y n => y = x ∧ At o i n := by
  have hL : LIMIT = 1048576 := rfl
  unfold Go Net.readmax
  obtain ⟨h1, h2, h3, h4⟩ := h
  rcases c17_readmax n.fr _ x i max (frame_is x (by omega)) hx hm h2 h4 with e | ⟨evs, e, hg⟩
  · rw [e]; trivial
  · rw [e]
    simp only []
    rw [if_neg (by decide)]
    exact ⟨rfl, h1, rfl, h3, hg⟩

theorem Go.readalloc {o i x : Bytes} {n : N} {allocOk : Nat → Bool} (ha : allocOk x.length = true) (hx : x.length < 2 ^ 63)
    (h : At o (frame x ++ i) n) : Go (Net.readalloc allocOk) n fun y n => y = x ∧ At o i n := by
  unfold Go Net.readalloc
  obtain ⟨h1, h2, h3, h4⟩ := h
  rcases c17_readalloc allocOk n.fr _ x i (frame_is x hx) ha hx h2 h4 with e | ⟨evs, e, hg⟩
  · rw [e]; trivial
  · rw [e]
    exact ⟨rfl, h1, rfl, h3, hg⟩

end Net

theorem Go.bind {α β : Type} {m : K α} {f : α → K β} {s : S} {Q : β → S → Prop}
    (h : Go m s fun a s => Go (f a) s Q) : Go (m >>= f) s Q := by
  unfold Go at h ⊢
  have e : (m >>= f) s = match m s with | .ok a s => f a s | .stop n => .stop n | .blocked n => .blocked n | .ub n => .ub n := rfl
  rw [e]
  revert h
  cases m s <;> exact id

theorem Go.mono {α : Type} {m : K α} {n : S} {Q Q' : α → S → Prop} (h : Go m n Q) (hq : ∀ a n, Q a n → Q' a n) : Go m n Q' := by
  unfold Go at h ⊢
  revert h
  cases m n <;> first | exact hq _ _ | exact id

theorem Go.lift {α : Type} {x : Out α} {a : α} {s : S} {Q : α → S → Prop} (hx : x = .ok a) (h : Q a s) : Go (Key.lift x) s Q := by
  subst hx; exact h

theorem Go.act {i o : Bytes} {l : List Act} {s : S} {a : Act} (h : KAt i o l s) : Go (Key.act a) s fun _ s => KAt i o (l ++ [a]) s := by
  obtain ⟨h1, h2, h3, h4⟩ := h
  exact ⟨h1, h2, by simp [h3], h4⟩

theorem Go.readall {i o x buf : Bytes} {l : List Act} {s : S} (hb : buf.length = x.length) (hx : x.length ≤ LIMIT) (h : KAt (frame x ++ i) o l s) :
    Go (readallTo buf x.length) s fun y s => y = x ∧ KAt i o (l ++ [.got x]) s := by
  have hL : LIMIT = 1048576 := rfl
  unfold Go readallTo
  obtain ⟨h1, h2, h3, h4, h5⟩ := h
  rcases c17_readall s.inp _ x i (frame_is x (by omega)) hx h1 h4 with e | ⟨evs, e, hg⟩
  · rw [e]; trivial
  · rw [e]
    simp only []
    rw [copyN_over _ _ _ (by omega)]
    simp only []
    rw [if_neg (by decide)]
    exact ⟨by simp [over, hb], rfl, h2, by simp [h3], hg, h5⟩

/-- With the start of the buffer as the target. -/
theorem Go.readall' {i o x buf : Bytes} {l : List Act} {s : S} (hb : x.length ≤ buf.length) (hx : x.length ≤ LIMIT) (h : KAt (frame x ++ i) o l s) :
    Go (readallTo buf x.length) s fun y s => y = x ++ buf.drop x.length ∧ KAt i o (l ++ [.got x]) s := by
  have hL : LIMIT = 1048576 := rfl
  unfold Go readallTo
  obtain ⟨h1, h2, h3, h4, h5⟩ := h
  rcases c17_readall s.inp _ x i (frame_is x (by omega)) hx h1 h4 with e | ⟨evs, e, hg⟩
  · rw [e]; trivial
  · rw [e]
    simp only []
    rw [copyN_over _ _ _ (by omega)]
    simp only []
    rw [if_neg (by decide)]
    exact ⟨by simp [over], rfl, h2, by simp [h3], hg, h5⟩

theorem Go.readmax {i o x buf : Bytes} {off max : Nat} {l : List Act} {s : S} (hm : max ≤ LIMIT) (hx : x.length ≤ max) (hb : off + max ≤ buf.length)
    (h : KAt (frame x ++ i) o l s) :
    Go (readmaxTo buf off max) s fun y s => y = (over buf off x, x.length) ∧ KAt i o (l ++ [.got x]) s := by
  have hL : LIMIT = 1048576 := rfl
  unfold Go readmaxTo
  obtain ⟨h1, h2, h3, h4, h5⟩ := h
  rcases c17_readmax s.inp _ x i max (frame_is x (by omega)) hx hm h1 h4 with e | ⟨evs, e, hg⟩
  · rw [e]; trivial
  · rw [e]
    simp only []
    rw [copyN_over _ _ _ (by omega)]
    simp only []
    rw [if_neg (by decide)]
    exact ⟨rfl, rfl, h2, by simp [h3], hg, h5⟩

theorem Go.send {i o x : Bytes} {l : List Act} {s : S} (h : KAt i o l s) :
    Go (Key.send x) s fun _ s => KAt i (o ++ frame x) (l ++ [.sent x]) s := by
  unfold Go Key.send
  obtain ⟨h1, h2, h3, h4, h5⟩ := h
  rcases pipe_write_good s.out x h5 with e | ⟨evs, e, hg⟩
  · rw [e]; trivial
  · rw [e]
    simp only []
    rw [if_neg (by decide)]
    exact ⟨h1, by simp [h2], by simp [h3], h4, hg⟩

theorem over_drop (buf : Bytes) (off : Nat) (x : Bytes) (h : off + x.length ≤ buf.length) : Ec.readN ((over buf off x).drop off) x.length = .ok x := by
  have e : (over buf off x).drop off = x ++ buf.drop (off + x.length) := by
    unfold over
    rw [List.drop_append, List.drop_of_length_le (by simp; omega), List.nil_append, List.length_take,
      show off - min off buf.length = 0 by omega, List.drop_zero]
  rw [e, Ec.readN_ok _ _ (by simp), List.take_left]

theorem raw_length (k n : Nat) : (Net.raw k n).length = k := by
  induction k generalizing n with
  | zero => rfl
  | succ k ih => simp [Net.raw, ih]

theorem leNat_raw (k n : Nat) (h : n < 256 ^ k) : leNat (Net.raw k n) = n := by
  induction k generalizing n with
  | zero => simp at h; subst h; rfl
  | succ k ih =>
    rw [Net.raw, leNat, ih _ (by rw [Nat.pow_succ] at h; exact Nat.div_lt_of_lt_mul (by omega))]
    simp only [UInt8.toNat_ofNat']
    omega

theorem schar_offByte (raw : Int) (h : -64 ≤ raw) (h' : raw ≤ 64) : schar (offByte raw) = raw := by
  unfold schar offByte
  simp only [UInt8.toNat_ofNat']
  split <;> omega

/-! ### The record requests -/

/-- One request: both sides agree on the bytes that travel. For any schedules of the
four pipe ends without failing calls, and whatever follows on the pipes: the network
side's call writes exactly `req`, consumes exactly `ans` and returns `a`; the key
side's code consumes exactly `req`, performs `op` on it and uses no secret otherwise,
writes exactly `ans` and continues with `b`. -/
abbrev ExchangeOn {α β : Type} (req ans : Bytes) (net : Net.M α) (a : α) (key : K β) (b : β) (op : Act) : Prop :=
  (∀ o i n, Net.At o (ans ++ i) n → Net.Go net n fun r n => r = a ∧ Net.At (o ++ req) i n) ∧
  (∀ i o l s, KAt (req ++ i) o l s → Go key s fun r s => r = b ∧ ∃ l1 l2, l1.filter Act.isUse = [] ∧ l2.filter Act.isUse = [] ∧
    KAt i (o ++ ans) (l ++ l1 ++ op :: l2) s)

/-- … for some such bytes. -/
def Exchange {α β : Type} (net : Net.M α) (a : α) (key : K β) (b : β) (op : Act) : Prop :=
  ∃ req ans : Bytes, ExchangeOn req ans net a key b op

/-- What both record requests consist of. -/
def recReq (op : Byte) (ty ver : Nat) (x : Bytes) : Bytes :=
  frame [op] ++ (frame (Net.raw 4 ty) ++ (frame (Net.raw 4 ver) ++ frame x))

theorem readRecord_go {i o x : Bytes} {l : List Act} {s : S} {ty ver : Nat} (hty : ty < 2 ^ 32) (hver : ver < 2 ^ 32) (hx : x.length ≤ 16709)
    (h : KAt (frame (Net.raw 4 ty) ++ (frame (Net.raw 4 ver) ++ (frame x ++ i))) o l s) :
    Go readRecord s fun r s => r = (ty, ver, x) ∧ KAt i o (l ++ [.got (Net.raw 4 ty)] ++ [.got (Net.raw 4 ver)] ++ [.got x]) s := by
  have hR : recMax = 16709 := rfl
  unfold readRecord
  have h1 := Go.readall (buf := List.replicate 4 0) (by rw [raw_length]; rfl) (by rw [raw_length]; decide) h
  rw [raw_length] at h1
  refine Go.bind (h1.mono ?_)
  rintro z s ⟨hz, h⟩
  have h1 := Go.readall (buf := List.replicate 4 0) (by rw [raw_length]; rfl) (by rw [raw_length]; decide) h
  rw [raw_length] at h1
  refine Go.bind (h1.mono ?_)
  rintro z' s ⟨hz', h⟩
  refine Go.bind ((Go.readmax (buf := List.replicate (recMax + 64) 0) (off := 64) (max := recMax) (by decide) (by omega) (by rw [List.length_replicate]; omega) h).mono ?_)
  rintro _ s ⟨rfl, h⟩
  refine Go.bind (Go.lift (over_drop _ _ _ (by rw [List.length_replicate]; omega)) ?_)
  refine ⟨?_, h⟩
  rw [hz, hz', leNat_raw 4 ty (by omega), leNat_raw 4 ver (by omega)]

theorem Go.readOp {i o : Bytes} {l : List Act} {s : S} {b : Byte} (h : KAt (frame [b] ++ i) o l s) :
    Go (readallTo [0] 1) s fun y s => y = [b] ∧ KAt i o (l ++ [.got [b]]) s :=
  Go.readall (x := [b]) rfl (by show 1 ≤ LIMIT; decide) h

/-- The network side's part of a record request up to the answer's offset. -/
theorem Net.ask_go {op : Byte} {ty ver : Nat} {x : Bytes} {o i : Bytes} {n : Net.N} {raw : Int} (hraw : -64 ≤ raw ∧ raw ≤ 64)
    (h : Net.At o (frame [offByte raw] ++ i) n) :
    Net.Go (Net.askRecord op ty ver x) n fun r n => r = raw ∧ Net.At (o ++ recReq op ty ver x) i n := by
  unfold Net.askRecord
  refine Net.Go.bind ((Net.Go.write h).mono fun _ n h => ?_)
  refine Net.Go.bind ((Net.Go.write h).mono fun _ n h => ?_)
  refine Net.Go.bind ((Net.Go.write h).mono fun _ n h => ?_)
  refine Net.Go.bind ((Net.Go.write h).mono fun _ n h => ?_)
  refine Net.Go.bind ((Net.Go.readall (x := [offByte raw]) (by show 1 ≤ LIMIT; decide) h).mono ?_)
  rintro _ n ⟨rfl, h⟩
  simp only [List.headD_cons, schar_offByte _ hraw.1 hraw.2]
  rw [if_neg (by omega)]
  exact Net.Go.pure ⟨rfl, by simpa only [recReq, List.append_assoc] using h⟩

theorem decrypt_exchange (p : P) (prf ty ver : Nat) (x y : Bytes) (raw : Int) (st st' : p.σ) (hty : ty < 2 ^ 32) (hver : ver < 2 ^ 32)
    (hx : x.length ≤ 16709) (hdec : p.dec st ty ver x = .ok (st', some (raw, y))) (hraw : -64 ≤ raw ∧ raw ≤ 64)
    (hy : y.length ≤ x.length) (hfit : raw + y.length ≤ 16709) (hne : y ≠ []) :
    ExchangeOn (recReq 1 ty ver x) (frame [offByte raw] ++ frame y)
      (Net.decrypt ty ver x) (some (raw, y)) (serveOne p prf st) st' (.decrypt ty ver x) := by
  have hL : LIMIT = 1048576 := rfl
  refine ⟨?_, ?_⟩
  · intro o i n h
    rw [List.append_assoc] at h
    refine Net.Go.orFail (Net.Go.bind ((Net.ask_go hraw h).mono ?_))
    rintro _ n ⟨rfl, h1⟩
    refine Net.Go.bind ((Net.Go.readmax (by omega) hy h1).mono ?_)
    rintro z n ⟨rfl, h'⟩
    rw [if_neg (by simpa using hne)]
    exact Net.Go.pure ⟨rfl, h'⟩
  · intro i o l s h
    simp only [recReq, List.append_assoc] at h
    unfold serveOne
    refine Go.bind ((Go.readOp h).mono ?_)
    rintro _ s ⟨rfl, h⟩
    rw [if_neg (by decide), if_pos (by decide)]
    refine Go.bind ((readRecord_go hty hver hx h).mono ?_)
    rintro _ s ⟨rfl, h⟩
    refine Go.bind ((Go.act h).mono fun _ s h => ?_)
    refine Go.bind (Go.lift hdec ?_)
    refine Go.bind (Go.lift (a := ()) (by unfold place; rw [if_pos (by have : recMax = 16709 := rfl; omega)]) ?_)
    rw [if_neg (by omega)]
    refine Go.bind ((Go.send h).mono fun _ s h => ?_)
    refine Go.bind ((Go.send h).mono fun _ s h => ?_)
    refine ⟨rfl, [.got [1], .got (Net.raw 4 ty), .got (Net.raw 4 ver), .got x], [.sent [offByte raw], .sent y], rfl, rfl, ?_⟩
    simpa only [List.append_assoc, List.cons_append, List.nil_append] using h

/-- C56: a decryption request arrives as it was made, and the plaintext comes back
where the key process found it. Partial: a record that decrypts to nothing is reported
as a failure, see `c56_empty_record`. -/
theorem c56_decrypt_partial (p : P) (prf ty ver : Nat) (x y : Bytes) (raw : Int) (st st' : p.σ) (hty : ty < 2 ^ 32) (hver : ver < 2 ^ 32)
    (hx : x.length ≤ 16709) (hdec : p.dec st ty ver x = .ok (st', some (raw, y))) (hraw : -64 ≤ raw ∧ raw ≤ 64)
    (hy : y.length ≤ x.length) (hfit : raw + y.length ≤ 16709) (hne : y ≠ []) :
    Exchange (Net.decrypt ty ver x) (some (raw, y)) (serveOne p prf st) st' (.decrypt ty ver x) :=
  ⟨_, _, decrypt_exchange p prf ty ver x y raw st st' hty hver hx hdec hraw hy hfit hne⟩

theorem decrypt_failure_exchange (p : P) (prf ty ver : Nat) (x : Bytes) (st st' : p.σ) (hty : ty < 2 ^ 32) (hver : ver < 2 ^ 32)
    (hx : x.length ≤ 16709) (hdec : p.dec st ty ver x = .ok (st', none)) :
    ExchangeOn (recReq 1 ty ver x) (frame [0] ++ frame [])
      (Net.decrypt ty ver x) none (serveOne p prf st) st' (.decrypt ty ver x) := by
  have hL : LIMIT = 1048576 := rfl
  refine ⟨?_, ?_⟩
  · intro o i n h
    rw [List.append_assoc] at h
    have e : offByte 0 = 0 := by decide
    rw [← e] at h
    refine Net.Fails.orFail (Net.Fails.bind ((Net.ask_go (by omega) h).mono ?_))
    rintro _ n ⟨rfl, h⟩
    refine Net.Fails.bind ((Net.Go.readmax (by omega) (Nat.zero_le _) h).mono ?_)
    rintro _ n ⟨rfl, h⟩
    exact ⟨rfl, h⟩
  · intro i o l s h
    simp only [recReq, List.append_assoc] at h
    unfold serveOne
    refine Go.bind ((Go.readOp h).mono ?_)
    rintro _ s ⟨rfl, h⟩
    rw [if_neg (by decide), if_pos (by decide)]
    refine Go.bind ((readRecord_go hty hver hx h).mono ?_)
    rintro _ s ⟨rfl, h⟩
    refine Go.bind ((Go.act h).mono fun _ s h => ?_)
    refine Go.bind (Go.lift hdec ?_)
    refine Go.bind ((Go.send h).mono fun _ s h => ?_)
    refine Go.bind ((Go.send h).mono fun _ s h => ?_)
    refine ⟨rfl, [.got [1], .got (Net.raw 4 ty), .got (Net.raw 4 ver), .got x], [.sent [0], .sent []], rfl, rfl, ?_⟩
    simpa only [List.append_assoc, List.cons_append, List.nil_append] using h

/-- C56: a record that the key process cannot decrypt is reported as such. -/
theorem c56_decrypt_failure (p : P) (prf ty ver : Nat) (x : Bytes) (st st' : p.σ) (hty : ty < 2 ^ 32) (hver : ver < 2 ^ 32)
    (hx : x.length ≤ 16709) (hdec : p.dec st ty ver x = .ok (st', none)) :
    Exchange (Net.decrypt ty ver x) none (serveOne p prf st) st' (.decrypt ty ver x) :=
  ⟨_, _, decrypt_failure_exchange p prf ty ver x st st' hty hver hx hdec⟩

theorem empty_record_exchange (p : P) (prf ty ver : Nat) (x : Bytes) (raw : Int) (st st' : p.σ) (hty : ty < 2 ^ 32) (hver : ver < 2 ^ 32)
    (hx : x.length ≤ 16709) (hdec : p.dec st ty ver x = .ok (st', some (raw, []))) (hraw : -64 ≤ raw ∧ raw ≤ 64) :
    ExchangeOn (recReq 1 ty ver x) (frame [offByte raw] ++ frame [])
      (Net.decrypt ty ver x) none (serveOne p prf st) st' (.decrypt ty ver x) := by
  have hL : LIMIT = 1048576 := rfl
  refine ⟨?_, ?_⟩
  · intro o i n h
    rw [List.append_assoc] at h
    refine Net.Fails.orFail (Net.Fails.bind ((Net.ask_go hraw h).mono ?_))
    rintro _ n ⟨rfl, h1⟩
    refine Net.Fails.bind ((Net.Go.readmax (max := x.length) (by omega) (Nat.zero_le _) h1).mono ?_)
    rintro _ n ⟨rfl, h⟩
    exact ⟨rfl, h⟩
  · intro i o l s h
    simp only [recReq, List.append_assoc] at h
    unfold serveOne
    refine Go.bind ((Go.readOp h).mono ?_)
    rintro _ s ⟨rfl, h⟩
    rw [if_neg (by decide), if_pos (by decide)]
    refine Go.bind ((readRecord_go hty hver hx h).mono ?_)
    rintro _ s ⟨rfl, h⟩
    refine Go.bind ((Go.act h).mono fun _ s h => ?_)
    refine Go.bind (Go.lift hdec ?_)
    refine Go.bind (Go.lift (a := ()) (by unfold place; rw [if_pos (by have : recMax = 16709 := rfl; simp; omega)]) ?_)
    rw [if_neg (by omega)]
    refine Go.bind ((Go.send h).mono fun _ s h => ?_)
    refine Go.bind ((Go.send h).mono fun _ s h => ?_)
    refine ⟨rfl, [.got [1], .got (Net.raw 4 ty), .got (Net.raw 4 ver), .got x], [.sent [offByte raw], .sent []], rfl, rfl, ?_⟩
    simpa only [List.append_assoc, List.cons_append, List.nil_append] using h

/-- C56 is violated: a record that decrypts to nothing (TLS allows empty records) is
reported as a failure, and ends the connection (tls_pipe.c:317). -/
theorem c56_empty_record (p : P) (prf ty ver : Nat) (x : Bytes) (raw : Int) (st st' : p.σ) (hty : ty < 2 ^ 32) (hver : ver < 2 ^ 32)
    (hx : x.length ≤ 16709) (hdec : p.dec st ty ver x = .ok (st', some (raw, []))) (hraw : -64 ≤ raw ∧ raw ≤ 64) :
    Exchange (Net.decrypt ty ver x) none (serveOne p prf st) st' (.decrypt ty ver x) :=
  ⟨_, _, empty_record_exchange p prf ty ver x raw st st' hty hver hx hdec hraw⟩

theorem encrypt_exchange (p : P) (prf ty ver : Nat) (x y : Bytes) (raw : Int) (st st' : p.σ) (hty : ty < 2 ^ 32) (hver : ver < 2 ^ 32)
    (hx : x.length ≤ 16709) (henc : p.enc st ty ver x = .ok (st', raw, y)) (hraw : -64 ≤ raw ∧ raw ≤ 64)
    (hy : y.length ≤ x.length + 85) (hfit : raw + y.length ≤ 16709) :
    ExchangeOn (recReq 2 ty ver x) (frame [offByte raw] ++ frame y)
      (Net.encrypt ty ver x) (some (raw, y)) (serveOne p prf st) st' (.encrypt ty ver x) := by
  have hL : LIMIT = 1048576 := rfl
  refine ⟨?_, ?_⟩
  · intro o i n h
    rw [List.append_assoc] at h
    refine Net.Go.orFail (Net.Go.bind ((Net.ask_go hraw h).mono ?_))
    rintro _ n ⟨rfl, h1⟩
    refine Net.Go.bind ((Net.Go.readmax (by omega) hy h1).mono ?_)
    rintro z n ⟨rfl, h'⟩
    exact Net.Go.pure ⟨rfl, h'⟩
  · intro i o l s h
    simp only [recReq, List.append_assoc] at h
    unfold serveOne
    refine Go.bind ((Go.readOp h).mono ?_)
    rintro _ s ⟨rfl, h⟩
    rw [if_neg (by decide), if_neg (by decide), if_pos (by decide)]
    refine Go.bind ((readRecord_go hty hver hx h).mono ?_)
    rintro _ s ⟨rfl, h⟩
    refine Go.bind ((Go.act h).mono fun _ s h => ?_)
    refine Go.bind (Go.lift henc ?_)
    refine Go.bind (Go.lift (a := ()) (by unfold place; rw [if_pos (by have : recMax = 16709 := rfl; omega)]) ?_)
    rw [if_neg (by omega)]
    refine Go.bind ((Go.send h).mono fun _ s h => ?_)
    refine Go.bind ((Go.send h).mono fun _ s h => ?_)
    refine ⟨rfl, [.got [2], .got (Net.raw 4 ty), .got (Net.raw 4 ver), .got x], [.sent [offByte raw], .sent y], rfl, rfl, ?_⟩
    simpa only [List.append_assoc, List.cons_append, List.nil_append] using h

/-- C56: an encryption request arrives as it was made, and the record comes back. The
network side has room for 85 more bytes than it sent. -/
theorem c56_encrypt (p : P) (prf ty ver : Nat) (x y : Bytes) (raw : Int) (st st' : p.σ) (hty : ty < 2 ^ 32) (hver : ver < 2 ^ 32)
    (hx : x.length ≤ 16709) (henc : p.enc st ty ver x = .ok (st', raw, y)) (hraw : -64 ≤ raw ∧ raw ≤ 64)
    (hy : y.length ≤ x.length + 85) (hfit : raw + y.length ≤ 16709) :
    Exchange (Net.encrypt ty ver x) (some (raw, y)) (serveOne p prf st) st' (.encrypt ty ver x) :=
  ⟨_, _, encrypt_exchange p prf ty ver x y raw st st' hty hver hx henc hraw hy hfit⟩

/-! ### The PRF -/

theorem prf_exchange (p : P) (prf : Nat) (label seed rnd : Bytes) (st : p.σ) (hlabel : label = b!"client finished" ∨ label = b!"server finished")
    (hseed : seed.length ≤ 48) (hlen : (p.prf st prf 12 label seed).length = 12) :
    ExchangeOn (frame [0] ++ (frame (label ++ [0]) ++ (frame (Net.raw 8 seed.length) ++ frame seed))) (frame (p.prf st prf 12 label seed))
      (Net.prf 12 label [seed] rnd) (p.prf st prf 12 label seed) (serveOne p prf st) st (.prf (label ++ [0]) seed) := by
  have hL : LIMIT = 1048576 := rfl
  have hl : label.length = 15 ∧ cstrOf (label ++ [0]) = .ok label := by rcases hlabel with rfl | rfl <;> exact ⟨rfl, by decide⟩
  refine ⟨?_, ?_⟩
  · intro o i n h
    refine Net.Go.bind (Net.Go.orFail ?_)
    rw [if_neg (by rcases hlabel with h | h <;> simp [h])]
    refine Net.Go.bind ((Net.Go.write h).mono fun _ n h => ?_)
    refine Net.Go.bind ((Net.Go.write h).mono fun _ n h => ?_)
    refine Net.Go.bind ((Net.Go.write h).mono fun _ n h => ?_)
    refine Net.Go.bind ((Net.Go.write h).mono fun _ n h => ?_)
    have := Net.Go.readall (by omega) h
    rw [hlen] at this
    refine this.mono ?_
    rintro _ n ⟨rfl, h⟩
    exact ⟨rfl, by simpa only [List.append_assoc] using h⟩
  · intro i o l s h
    simp only [List.append_assoc] at h
    unfold serveOne
    refine Go.bind ((Go.readOp h).mono ?_)
    rintro _ s ⟨rfl, h⟩
    rw [if_pos (by decide)]
    have h16 : (label ++ [0]).length = 16 := by simp [hl.1]
    have h1 := Go.readall (x := label ++ [0]) (buf := List.replicate 16 0) (by rw [h16]; rfl) (by omega) (by simpa only [List.append_assoc] using h)
    rw [h16] at h1
    refine Go.bind (h1.mono ?_)
    rintro _ s ⟨rfl, h⟩
    have h1 := Go.readall (buf := List.replicate 8 0) (by rw [raw_length]; rfl) (by rw [raw_length]; omega) h
    rw [raw_length] at h1
    refine Go.bind (h1.mono ?_)
    rintro _ s ⟨rfl, h⟩
    rw [leNat_raw 8 _ (by omega), if_neg (by omega)]
    refine Go.bind ((Go.readmax (off := 0) (buf := List.replicate 48 0) (by omega) (Nat.le_refl _) (by rw [List.length_replicate]; omega) h).mono ?_)
    rintro _ s ⟨rfl, h⟩
    have h2 := over_drop (List.replicate 48 0) 0 seed (by rw [List.length_replicate]; omega)
    rw [List.drop_zero] at h2
    refine Go.bind (Go.lift h2 ?_)
    refine Go.bind ((Go.act h).mono fun _ s h => ?_)
    refine Go.bind (Go.lift hl.2 ?_)
    refine Go.bind ((Go.send h).mono fun _ s h => ?_)
    refine ⟨rfl, [.got [0], .got (label ++ [0]), .got (Net.raw 8 seed.length), .got seed], [.sent (p.prf st prf 12 label seed)], rfl, rfl, ?_⟩
    simpa only [List.append_assoc, List.cons_append, List.nil_append] using h

/-- C56: the two labels of the Finished messages arrive with their seed; the answer is
the twelve bytes of the PRF. -/
theorem c56_prf (p : P) (prf : Nat) (label seed rnd : Bytes) (st : p.σ) (hlabel : label = b!"client finished" ∨ label = b!"server finished")
    (hseed : seed.length ≤ 48) (hlen : (p.prf st prf 12 label seed).length = 12) :
    Exchange (Net.prf 12 label [seed] rnd) (p.prf st prf 12 label seed) (serveOne p prf st) st (.prf (label ++ [0]) seed) :=
  ⟨_, _, prf_exchange p prf label seed rnd st hlabel hseed hlen⟩

/-- C56: no other use of the PRF reaches the key process: the caller gets the random
bytes. -/
theorem c56_prf_other (len : Nat) (label rnd : Bytes) (seeds : List Bytes) (n : Net.N)
    (h : label ≠ b!"client finished" ∧ label ≠ b!"server finished" ∨ seeds.length ≠ 1) : Net.prf len label seeds rnd n = .ok rnd n := by
  rcases h with h | h
  · unfold Net.prf
    rw [if_pos h]
    rfl
  · unfold Net.prf
    split
    · rfl
    · match seeds, h with
      | [], _ => rfl
      | _ :: _ :: _, _ => rfl

/-! ### The handshake -/

theorem sign_net (algo max : Nat) (d sig : Bytes) (hmax : max ≤ 2048) (hsig : sig.length ≤ max) (o i : Bytes) (n : Net.N) (h : Net.At o (frame sig ++ i) n) :
    Net.Go (Net.dosign algo d max) n fun r n => r = some sig ∧ Net.At (o ++ (frame [UInt8.ofNat algo] ++ (frame (Net.raw 8 max) ++ frame d))) i n := by
  have hL : LIMIT = 1048576 := rfl
  refine Net.Go.orFail (Net.Go.bind ((Net.Go.write h).mono fun _ n h => ?_))
  refine Net.Go.bind ((Net.Go.write h).mono fun _ n h => ?_)
  refine Net.Go.bind ((Net.Go.write h).mono fun _ n h => ?_)
  refine (Net.Go.readmax (by omega) hsig h).mono ?_
  rintro _ n ⟨rfl, h'⟩
  exact ⟨rfl, by simpa only [List.append_assoc] using h'⟩

theorem sign_exchange (p : P) (hp : Lawful p) (pem : Pems) (k : Option Bytes) (hk : Holds p.cipher pem k) (algo max : Nat) (d sig : Bytes)
    (hd : d.length ≤ max) (hmax : max ≤ 2048) (hs : p.doSign (k.getD []) (UInt8.ofNat algo) d = .ok sig) (hsig : sig.length ≤ max) :
    ExchangeOn (frame [UInt8.ofNat algo] ++ (frame (Net.raw 8 max) ++ frame d)) (frame sig)
      (Net.dosign algo d max) (some sig) (signOnce p pem) () (.sign (k.getD []) (UInt8.ofNat algo) d) := by
  have hL : LIMIT = 1048576 := rfl
  refine ⟨sign_net algo max d sig hmax hsig, ?_⟩
  · intro i o l s h
    simp only [List.append_assoc] at h
    unfold signOnce
    refine Go.bind ((Go.readOp h).mono ?_)
    rintro _ s ⟨rfl, h⟩
    have h1 := Go.readall (buf := List.replicate 8 0) (by rw [raw_length]; rfl) (by rw [raw_length]; omega) h
    rw [raw_length] at h1
    refine Go.bind (h1.mono ?_)
    rintro _ s ⟨rfl, h⟩
    rw [leNat_raw 8 _ (by omega), if_neg (by omega)]
    refine Go.bind ((Go.readmax (off := 0) (by omega) hd (by rw [hp.data]; omega) h).mono ?_)
    rintro _ s ⟨rfl, h⟩
    have h2 := over_drop p.data 0 d (by rw [hp.data]; omega)
    rw [List.drop_zero] at h2
    refine Go.bind (Go.lift (hk _) ?_)
    refine Go.bind (Go.lift h2 ?_)
    refine Go.bind (Go.lift (a := UInt8.ofNat algo) rfl ?_)
    refine Go.bind ((Go.act h).mono fun _ s h => ?_)
    refine Go.bind (Go.lift hs ?_)
    have hl : (over p.data 0 d).length = 2048 := by rw [over_length _ _ _ (by rw [hp.data]; omega), hp.data]
    refine Go.bind (Go.lift (copyN_over _ _ _ (by omega)) ?_)
    have h3 := over_drop (over p.data 0 d) 0 sig (by omega)
    rw [List.drop_zero] at h3
    refine Go.bind (Go.lift h3 ?_)
    refine (Go.send h).mono fun _ s h => ?_
    refine ⟨rfl, [.got [UInt8.ofNat algo], .got (Net.raw 8 max), .got d], [.sent sig], rfl, rfl, ?_⟩
    simpa only [List.append_assoc, List.cons_append, List.nil_append] using h

/-- C56: a signature request arrives as it was made, and the signature comes back. -/
theorem c56_sign (p : P) (hp : Lawful p) (pem : Pems) (k : Option Bytes) (hk : Holds p.cipher pem k) (algo max : Nat) (d sig : Bytes)
    (hd : d.length ≤ max) (hmax : max ≤ 2048) (hs : p.doSign (k.getD []) (UInt8.ofNat algo) d = .ok sig) (hsig : sig.length ≤ max) :
    Exchange (Net.dosign algo d max) (some sig) (signOnce p pem) () (.sign (k.getD []) (UInt8.ofNat algo) d) :=
  ⟨_, _, sign_exchange p hp pem k hk algo max d sig hd hmax hs hsig⟩

theorem mul_exchange (p : P) (c : Ec.Spec.Curve) (x pk sk g sid cr sr : Bytes) (version suite : Nat) (hr : Ready p c x pk c.point sk)
    (hg : g.length = c.point) (hsid : sid.length = 32) (hcr : cr.length = 32) (hsr : sr.length = 32) (hv : version < 2 ^ 16) (hs : suite < 2 ^ 16)
    (r : Ec.Res) (prf : Nat) (kind : Kind) (hmul : Ec.mul p.ec c.id (g ++ pk.drop g.length) sk = .ok r) (hret : r.ret ≠ -1)
    (hsuite : suiteOf suite = some (prf, kind)) :
    ExchangeOn (frame g ++ (frame sid ++ (frame (Net.raw 2 version) ++ (frame (Net.raw 2 suite) ++ (frame cr ++ frame sr))))) []
      (Net.mul g sid version suite cr sr) (some ()) (agreeOnce p c.id pk c.point sk)
      (p.install ⟨sid, version, suite, cr, sr⟩ prf kind (r.p.take r.plen), prf) (.agree c.id [.mul c.id g x] ⟨sid, version, suite, cr, sr⟩ true) := by
  have hL : LIMIT = 1048576 := rfl
  obtain ⟨hc1, hc2⟩ := curve_sizes hr.mem
  refine ⟨?_, ?_⟩
  · intro o i n h
    refine Net.Go.orFail (Net.Go.bind ((Net.Go.write h).mono fun _ n h => ?_))
    refine Net.Go.bind ((Net.Go.write h).mono fun _ n h => ?_)
    refine Net.Go.bind ((Net.Go.write h).mono fun _ n h => ?_)
    refine Net.Go.bind ((Net.Go.write h).mono fun _ n h => ?_)
    refine Net.Go.bind ((Net.Go.write h).mono fun _ n h => ?_)
    refine (Net.Go.write h).mono fun _ n h => ?_
    exact ⟨rfl, by simpa only [List.append_assoc, List.nil_append] using h⟩
  · intro i o l s h
    simp only [List.append_assoc] at h
    unfold agreeOnce
    have h1 := Go.readall' (buf := pk) (by rw [hr.pk, hg]; exact hc1) (by rw [hg]; omega) h
    rw [hg] at h1
    refine Go.bind (h1.mono ?_)
    rintro z s ⟨hz, h⟩
    have h1 := Go.readall (buf := List.replicate 32 0) (by rw [hsid]; rfl) (by omega) h
    rw [hsid] at h1
    refine Go.bind (h1.mono ?_)
    rintro z1 s ⟨hz1, h⟩
    have h1 := Go.readall (buf := List.replicate 2 0) (by rw [raw_length]; rfl) (by rw [raw_length]; omega) h
    rw [raw_length] at h1
    refine Go.bind (h1.mono ?_)
    rintro z2 s ⟨hz2, h⟩
    have h1 := Go.readall (buf := List.replicate 2 0) (by rw [raw_length]; rfl) (by rw [raw_length]; omega) h
    rw [raw_length] at h1
    refine Go.bind (h1.mono ?_)
    rintro z3 s ⟨hz3, h⟩
    have h1 := Go.readall (buf := List.replicate 32 0) (by rw [hcr]; rfl) (by omega) h
    rw [hcr] at h1
    refine Go.bind (h1.mono ?_)
    rintro z4 s ⟨hz4, h⟩
    have h1 := Go.readall (buf := List.replicate 32 0) (by rw [hsr]; rfl) (by omega) h
    rw [hsr] at h1
    refine Go.bind (h1.mono ?_)
    rintro z5 s ⟨hz5, h⟩
    rw [hz, hz1, hz2, hz3, hz4, hz5, leNat_raw 2 _ (by omega), leNat_raw 2 _ (by omega)]
    rw [hg] at hmul
    refine Go.bind (Go.lift hmul ?_)
    have hl : (g ++ pk.drop c.point).length = 133 := by have := hr.pk; simp; omega
    obtain ⟨r', e1, e2, e3, e4⟩ := hr.mul _ hl
    rw [hmul] at e1
    injection e1 with e1
    subst e1
    have e5 : r.calls = [.mul c.id g x] := by rw [e2, ← hg, List.take_left]
    rw [e5]
    refine Go.bind ((Go.act h).mono fun _ s h => ?_)
    rw [if_neg hret]
    simp only [hsuite]
    refine Go.bind (Go.lift (readN_ok _ _ (by omega)) ?_)
    refine Go.bind ((Go.act h).mono fun _ s h => ?_)
    refine ⟨rfl, [.got g, .got sid, .got (Net.raw 2 version), .got (Net.raw 2 suite), .got cr, .got sr], [.install prf kind], rfl, rfl, ?_⟩
    simpa only [List.append_assoc, List.cons_append, List.nil_append, List.append_nil, ne_eq, hret, not_false_eq_true, decide_true] using h

/-- C56: the peer's point and the session's parameters arrive as they were sent. There
is no answer. -/
theorem c56_mul (p : P) (c : Ec.Spec.Curve) (x pk sk g sid cr sr : Bytes) (version suite : Nat) (hr : Ready p c x pk c.point sk)
    (hg : g.length = c.point) (hsid : sid.length = 32) (hcr : cr.length = 32) (hsr : sr.length = 32) (hv : version < 2 ^ 16) (hs : suite < 2 ^ 16)
    (r : Ec.Res) (prf : Nat) (kind : Kind) (hmul : Ec.mul p.ec c.id (g ++ pk.drop g.length) sk = .ok r) (hret : r.ret ≠ -1)
    (hsuite : suiteOf suite = some (prf, kind)) :
    Exchange (Net.mul g sid version suite cr sr) (some ()) (agreeOnce p c.id pk c.point sk)
      (p.install ⟨sid, version, suite, cr, sr⟩ prf kind (r.p.take r.plen), prf) (.agree c.id [.mul c.id g x] ⟨sid, version, suite, cr, sr⟩ true) :=
  ⟨_, _, mul_exchange p c x pk sk g sid cr sr version suite hr hg hsid hcr hsr hv hs r prf kind hmul hret hsuite⟩

theorem mulgen_exchange (p : P) (hp : Lawful p) (loads : List LoadEnv) (certfn : Bytes) (hc : certfn.length = 1024) (pem : Pems)
    (curve : Nat) (hcurve : curve < 256) (hj : p.nojail = true ∨ p.jail = true) (r : Ec.Res) (hr : Ec.base p.ec curve p.pk p.sk = .ok r)
    (hret : r.ret ≠ -1) (hfit : r.plen ≤ r.p.length) (hlen : r.plen ≤ 133) :
    ExchangeOn (frame [] ++ frame [UInt8.ofNat curve]) (frame (r.p.take r.plen)) (Net.mulgen curve) (some (r.p.take r.plen))
      (do let pem ← loadLoop p.cipher loads certfn pem; enterJail p.nojail p.jail; let k ← keygen p; return (pem, k))
      (pem, curve, r.p, r.plen, r.sk) (.keygen curve r.calls true) := by
  have hL : LIMIT = 1048576 := rfl
  refine ⟨?_, ?_⟩
  · intro o i n h
    refine Net.Go.orFail (Net.Go.bind ((Net.Go.write h).mono fun _ n h => ?_))
    refine Net.Go.bind ((Net.Go.write h).mono fun _ n h => ?_)
    refine (Net.Go.readmax (by omega) (by rw [List.length_take]; omega) h).mono ?_
    rintro _ n ⟨rfl, h'⟩
    exact ⟨rfl, by simpa only [List.append_assoc] using h'⟩
  · intro i o l s h
    simp only [List.append_assoc] at h
    have hcu : (UInt8.ofNat curve).toNat = curve := by rw [UInt8.toNat_ofNat']; omega
    refine Go.bind ?_
    unfold loadLoop
    refine Go.bind ((Go.readmax (off := 0) (by omega) (Nat.zero_le _) (by omega) h).mono ?_)
    rintro _ s ⟨rfl, h⟩
    simp only [List.length_nil, if_true]
    show Go _ _ _
    have key : ∀ (l1 : List Act) (s : S), l1.filter Act.isUse = [] → KAt (frame [UInt8.ofNat curve] ++ i) o (l ++ [.got []] ++ l1) s →
        Go (keygen p) s fun k s => k = (curve, r.p, r.plen, r.sk) ∧ ∃ l1 l2,
          l1.filter Act.isUse = [] ∧ l2.filter Act.isUse = [] ∧ KAt i (o ++ frame (r.p.take r.plen)) (l ++ l1 ++ .keygen curve r.calls true :: l2) s := by
      intro l1 s hl1 h
      unfold keygen
      refine Go.bind ((Go.readOp h).mono ?_)
      rintro _ s ⟨rfl, h⟩
      have e : leNat [UInt8.ofNat curve] = curve := by simp only [leNat, hcu]; omega
      simp only [e]
      refine Go.bind (Go.lift hr ?_)
      refine Go.bind ((Go.act h).mono fun _ s h => ?_)
      rw [if_neg hret]
      refine Go.bind (Go.lift (readN_ok _ _ hfit) ?_)
      refine Go.bind ((Go.send h).mono fun _ s h => ?_)
      refine ⟨rfl, .got [] :: (l1 ++ [.got [UInt8.ofNat curve]]), [.sent (r.p.take r.plen)],
        by simp [List.filter_cons, Act.isUse, hl1], rfl, ?_⟩
      simpa only [List.append_assoc, List.cons_append, List.nil_append, List.append_nil, ne_eq, hret, not_false_eq_true, decide_true] using h
    refine Go.bind ?_
    unfold enterJail
    split
    · refine Go.bind ((key [] s rfl (by simpa using h)).mono ?_)
      rintro _ s ⟨rfl, h⟩
      exact ⟨rfl, h⟩
    · rename_i hn
      rw [if_pos (by rcases hj with h | h; · exact absurd h hn
                     · exact h)]
      refine (Go.act h).mono fun _ s h => ?_
      refine Go.bind ((key [.jail] s rfl h).mono ?_)
      rintro _ s ⟨rfl, h⟩
      exact ⟨rfl, h⟩

theorem Net.Fails.readalloc {o i : Bytes} {n : Net.N} {allocOk : Nat → Bool} {e : Int} (he : 0 < e ∧ e < 2 ^ 31)
    (h : Net.At o (uint64_pack (-e) ++ i) n) : Net.Fails (Net.readalloc allocOk) n fun n => Net.At o i n := by
  unfold Net.Fails Net.readalloc
  obtain ⟨h1, h2, h3, h4⟩ := h
  have h8 : (uint64_pack (-e)).length = 8 := (c16_pack (-e)).1
  have h5 := readall_exact n.fr _ i h2 h4
  rw [h8] at h5
  unfold pipe_readalloc
  rcases h5 with h5 | ⟨evs, h5, hg⟩
  · have h5' : Rw.readall n.fr 8 = none := h5
    rw [h5']; trivial
  · have h5' : Rw.readall n.fr 8 = some (0, uint64_pack (-e), ⟨i, evs⟩) := h5
    rw [h5']
    simp only [Option.bind_eq_bind, Option.bind_some]
    rw [c16_unpack_pack (-e) (by unfold IsLL llmin llmax; omega), if_neg (by decide), if_pos (by omega), if_neg (by unfold llmin; omega)]
    exact ⟨h1, rfl, h3, hg⟩

theorem Net.Fails.first {α β : Type} {m : Net.M α} {f : α → Net.M β} {n : Net.N} {Q : Net.N → Prop}
    (h : Net.Fails m n Q) : Net.Fails (m >>= f) n Q := by
  unfold Net.Fails at *
  have e : (m >>= f) n = match m n with | .ok a s => f a s | .fail n => .fail n | .blocked n => .blocked n | .ub n => .ub n := rfl
  rw [e]
  revert h
  cases m n <;> first | exact id | exact False.elim

theorem Go.sendErrno {i o : Bytes} {l : List Act} {s : S} {e : Int} (h : KAt i o l s) :
    Go (Key.sendErrno e) s fun _ s => KAt i (o ++ uint64_pack (-e)) (l ++ [.errno e]) s := by
  unfold Go Key.sendErrno
  obtain ⟨h1, h2, h3, h4, h5⟩ := h
  rcases pipe_writeerrno_good s.out e h5 with e | ⟨evs, e, hg⟩
  · rw [e]; trivial
  · rw [e]
    simp only []
    rw [if_neg (by decide)]
    exact ⟨h1, by simp [h2], by simp [h3], h4, hg⟩

/-- C56: the request for the ephemeral point also ends the list of names; the point
comes back. -/
theorem c56_mulgen (p : P) (hp : Lawful p) (loads : List LoadEnv) (certfn : Bytes) (hc : certfn.length = 1024) (pem : Pems)
    (curve : Nat) (hcurve : curve < 256) (hj : p.nojail = true ∨ p.jail = true) (r : Ec.Res) (hr : Ec.base p.ec curve p.pk p.sk = .ok r)
    (hret : r.ret ≠ -1) (hfit : r.plen ≤ r.p.length) (hlen : r.plen ≤ 133) :
    Exchange (Net.mulgen curve) (some (r.p.take r.plen))
      (do let pem ← loadLoop p.cipher loads certfn pem; enterJail p.nojail p.jail; let k ← keygen p; return (pem, k))
      (pem, curve, r.p, r.plen, r.sk) (.keygen curve r.calls true) :=
  ⟨_, _, mulgen_exchange p hp loads certfn hc pem curve hcurve hj r hr hret hfit hlen⟩

/-- The key process, waiting for a name, goes on waiting for the next one after `acts`
and the answer `ans`. -/
def Continues (cipher : Pem.Stream) (ld : LoadEnv) (loads : List LoadEnv) (certfn : Bytes) (pem : Pems) (req ans : Bytes) (acts : List Act) (k : Option Bytes) : Prop :=
  ∀ i o l s (Q : Pems → S → Prop), KAt (req ++ i) o l s →
    (∀ certfn' pem' s', certfn'.length = 1024 → Holds cipher pem' k → KAt i (o ++ ans) (l ++ acts) s' → Go (loadLoop cipher loads certfn' pem') s' Q) →
    Go (loadLoop cipher (ld :: loads) certfn pem) s Q

theorem takeWhile_noNul (x : Bytes) (h : 0 ∉ x) : x.takeWhile (· ≠ 0) = x := by
  induction x with
  | nil => rfl
  | cons b x ih =>
    have hb : b ≠ 0 := fun e => h (by rw [e]; exact List.mem_cons_self ..)
    rw [List.takeWhile_cons, if_pos (by simpa using hb), ih (fun hm => h (.tail _ hm))]

/-- C56: a request for a certificate arrives with the name that was asked for, and the
public part of that file (as split by the specification of C29) comes back. -/
theorem c56_getcert {γ : Type} (p : P) (hp : Lawful p) (ld : LoadEnv) (hld : ld ∈ p.loads) (loads : List LoadEnv) (certfn : Bytes) (hc : certfn.length = 1024)
    (pem : Pems) (fn : Bytes) (hfn : fn.length < 1024) (h0 : 0 ∉ fn) (allocOk : Nat → Bool) (parse : Bytes → Bytes → Option γ)
    (nc : Option Bytes × Pem.Ctx) (hload : Pem.load p.cipher pem.nonce ld.key (ld.env (Path.Spec.undot (Path.Spec.collapse fn))) = .ok (some nc))
    (ha : ∀ n, allocOk n = true) :
    ∃ d pub sec, content (ld.env (Path.Spec.undot (Path.Spec.collapse fn))) = some d ∧
      Pem.Selected (Pem.usable d) pub (Pem.InCert (Pem.usable d)) ∧ Pem.Selected (Pem.usable d) sec (fun i => ¬ Pem.InCert (Pem.usable d) i) ∧
      (∀ o i n, Net.At o (frame (Pem.text pub) ++ i) n →
        Net.Go (Net.getcert allocOk parse fn) n fun r n => r = parse (Pem.text pub) fn ∧ Net.At (o ++ frame (fn ++ [0])) i n) ∧
      Continues p.cipher ld loads certfn pem (frame (fn ++ [0])) (frame (Pem.text pub))
        [.got (fn ++ [0]), .load (Path.Spec.undot (Path.Spec.collapse fn)) (some d), .sent (Pem.text pub)] (some (Pem.text sec)) := by
  have hL : LIMIT = 1048576 := rfl
  have hname : Spec.name (fn ++ [0]) = Path.Spec.undot (Path.Spec.collapse fn) := by
    unfold Spec.name
    rw [List.dropLast_concat]
    congr 2
    exact takeWhile_noNul fn h0
  obtain ⟨l1, l2, l3⟩ := hp.loads ld hld (Path.Spec.undot (Path.Spec.collapse fn))
  obtain ⟨d, c0, g1, g2, ⟨b, g3⟩, g4⟩ := load_inv hload l1 l2 (fun b n h => (l3 b n h).1)
  obtain ⟨nonce, ctx⟩ := nc
  have hpub : Ec.readN ctx.pub ctx.publen = .ok (Pem.text (Pem.partOf true (Pem.classify false (Pem.usable d)))) := by
    have : ctx.pub = c0.pub ∧ ctx.publen = c0.publen := by
      unfold Pem.encrypt at g2; simp only [Prod.mk.injEq] at g2; rw [g2.2]; exact ⟨rfl, rfl⟩
    rw [this.1, this.2]
    unfold Ec.readN
    rw [if_pos (by rw [g4.pubBuf]; exact g4.pubFits), g4.pub, g4.publen, List.take_left]
  have hplen : (Pem.text (Pem.partOf true (Pem.classify false (Pem.usable d)))).length < 2 ^ 63 := by
    have := (l3 _ _ g3).2
    have := g4.pubFits
    rw [g4.publen] at this
    omega
  refine ⟨d, _, _, g1, g4.pubSel, g4.secSel, ?_, ?_⟩
  · intro o i n h
    unfold Net.getcert
    cases hp : parse (Pem.text (Pem.partOf true (Pem.classify false (Pem.usable d)))) fn with
    | none =>
      refine Net.Fails.orFail (Net.Fails.bind ((Net.Go.write h).mono fun _ n h => ?_))
      refine Net.Fails.bind ((Net.Go.readalloc (ha _) hplen h).mono ?_)
      rintro _ n ⟨rfl, h⟩
      simp only [hp]
      exact ⟨trivial, h⟩
    | some c =>
      refine Net.Go.orFail (Net.Go.bind ((Net.Go.write h).mono fun _ n h => ?_))
      refine Net.Go.bind ((Net.Go.readalloc (ha _) hplen h).mono ?_)
      rintro _ n ⟨rfl, h⟩
      simp only [hp]
      exact ⟨rfl, h⟩
  · intro i o l s Q h hQ
    unfold loadLoop
    have hlen : (fn ++ [0]).length ≤ 1024 := by simp; omega
    refine Go.bind ((Go.readmax (off := 0) (by omega) hlen (by omega) h).mono ?_)
    rintro _ s ⟨rfl, h⟩
    simp only []
    rw [if_neg (by simp)]
    obtain ⟨c, e1, e2, e3⟩ := cleanName_ok certfn (fn ++ [0]) hc hlen (by simp)
    rw [hname] at e3
    refine Go.bind (Go.lift e1 ?_)
    refine Go.bind (Go.lift e3 ?_)
    refine Go.bind (Go.lift hload ?_)
    simp only []
    rw [g1]
    refine Go.bind ((Go.act h).mono fun _ s h => ?_)
    refine Go.bind (Go.lift hpub ?_)
    refine Go.bind ((Go.send h).mono fun _ s h => ?_)
    refine hQ _ _ _ e2 ?_ (by simpa only [List.append_assoc, List.cons_append, List.nil_append] using h)
    intro rnd
    unfold Pem.encrypt at g2 ⊢
    simp only [Prod.mk.injEq] at g2
    obtain ⟨rfl, rfl⟩ := g2
    simp only [Option.getD_some]
    rw [Pem.xorRun_twice]
    unfold Ec.readN
    rw [if_pos (by rw [g4.secBuf]; exact g4.secFits), g4.sec, g4.seclen, List.take_left]

/-- C56: if the file cannot be loaded, the network side gets a failure, and the key
process waits for the next name. -/
theorem c56_getcert_failure {γ : Type} (p : P) (ld : LoadEnv) (loads : List LoadEnv) (certfn : Bytes) (hc : certfn.length = 1024)
    (pem : Pems) (fn : Bytes) (hfn : fn.length < 1024) (h0 : 0 ∉ fn) (allocOk : Nat → Bool) (parse : Bytes → Bytes → Option γ)
    (hload : Pem.load p.cipher pem.nonce ld.key (ld.env (Path.Spec.undot (Path.Spec.collapse fn))) = .ok none)
    (he : 0 < ld.errno ∧ ld.errno < 2 ^ 31) :
    (∀ o i n, Net.At o (uint64_pack (-ld.errno) ++ i) n →
        Net.Go (Net.getcert allocOk parse fn) n fun r n => r = none ∧ Net.At (o ++ frame (fn ++ [0])) i n) ∧
      Continues p.cipher ld loads certfn pem (frame (fn ++ [0])) (uint64_pack (-ld.errno))
        [.got (fn ++ [0]), .load (Path.Spec.undot (Path.Spec.collapse fn)) none, .errno ld.errno] none := by
  have hL : LIMIT = 1048576 := rfl
  have hname : Spec.name (fn ++ [0]) = Path.Spec.undot (Path.Spec.collapse fn) := by
    unfold Spec.name
    rw [List.dropLast_concat]
    congr 2
    exact takeWhile_noNul fn h0
  refine ⟨?_, ?_⟩
  · intro o i n h
    unfold Net.getcert
    refine Net.Fails.orFail (Net.Fails.bind ((Net.Go.write h).mono fun _ n h => ?_))
    have := Net.Fails.readalloc (allocOk := allocOk) he h
    refine Net.Fails.first ?_
    unfold Net.Fails at this ⊢
    revert this
    cases Net.readalloc allocOk n <;> first | exact id | exact fun h => ⟨rfl, h⟩
  · intro i o l s Q h hQ
    unfold loadLoop
    have hlen : (fn ++ [0]).length ≤ 1024 := by simp; omega
    refine Go.bind ((Go.readmax (off := 0) (by omega) hlen (by omega) h).mono ?_)
    rintro _ s ⟨rfl, h⟩
    simp only []
    rw [if_neg (by simp)]
    obtain ⟨c, e1, e2, e3⟩ := cleanName_ok certfn (fn ++ [0]) hc hlen (by simp)
    rw [hname] at e3
    refine Go.bind (Go.lift e1 ?_)
    refine Go.bind (Go.lift e3 ?_)
    refine Go.bind (Go.lift hload ?_)
    refine Go.bind ((Go.act h).mono fun _ s h => ?_)
    refine Go.bind ((Go.sendErrno h).mono fun _ s h => ?_)
    refine hQ _ _ _ e2 (fun _ => rfl) (by simpa only [List.append_assoc, List.cons_append, List.nil_append] using h)

/-! A concrete exchange: both sides of a decryption request. -/

/-- The network side. -/
example : Net.decrypt 23 0x303 (List.replicate 20 7) ⟨⟨[], List.replicate 9 (.data 4095)⟩, ⟨frame [0] ++ frame (List.replicate 4 7), List.replicate 9 (.data 4095)⟩⟩ =
    .ok (some (0, List.replicate 4 7)) ⟨⟨recReq 1 23 0x303 (List.replicate 20 7), [.data 4095]⟩, ⟨[], List.replicate 5 (.data 4095)⟩⟩ := by
  decide +kernel

/-- The key side, up to the decryption: the hypotheses of `c56_decrypt_partial` are met. -/
example : (toy []).dec () 23 0x303 (List.replicate 20 7) = .ok ((), some (0, List.replicate 4 7)) := by rfl
example : Pem.load (toy []).cipher none (List.replicate 32 7) (toyEnv b!"cert.pem") ≠ .ok none := by
  intro h
  have : (match Pem.load (toy []).cipher none (List.replicate 32 7) (toyEnv b!"cert.pem") with | .ok (some _) => true | _ => false) = true := by decide +kernel
  rw [h] at this
  cases this
end Key
