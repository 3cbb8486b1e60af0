import Verif.Key.NetProps
import Verif.Key.Lost
/-
Reading answers from a key process that may have gone away.
-/
namespace Key
open Io Pipe Rw

/-- Nothing more can be read. (Specification or proof notion; models no line of /repo.) -/
def RDead (fd : RFd) : Prop := fd.src = [] ∨ ∀ e ∈ fd.evs, rdFails e
/-- Nothing more can be written. (Specification or proof notion; models no line of /repo.) -/
def WDead (fd : WFd) : Prop := ∀ e ∈ fd.evs, wrFails e

theorem readallLoop_dead (evs : List RdEv) (src : Bytes) (n : Nat) (x : Bytes) (h : RDead ⟨src, evs⟩) :
    readallLoop evs src (n + 1) x = none ∨ ∃ x' fd, readallLoop evs src (n + 1) x = some (-1, x', fd) ∧ RDead fd := by
  induction evs with
  | nil => exact .inl rfl
  | cons e evs ih =>
    have h' : RDead ⟨src, evs⟩ := h.imp id fun h e he => h e (.tail _ he)
    cases e with
    | data m =>
      rcases h with h | h
      · right
        simp only [] at h
        subst h
        exact ⟨x, ⟨[], evs⟩, by simp [readallLoop, got], .inl rfl⟩
      · exact absurd (h _ (.head _)) id
    | eintr => exact ih h'
    | eagain => exact ih h'
    | err k => exact .inr ⟨x, ⟨src, evs⟩, rfl, h'⟩

theorem readallLoop_cut (evs : List RdEv) (src : Bytes) (n : Nat) (x w A : Bytes) (hs : src <+: w ++ A) (hw : w.length = n) (hb : Broken rdFails evs) :
    readallLoop evs src n x = none ∨
    (∃ src' evs', readallLoop evs src n x = some (0, x ++ w, ⟨src', evs'⟩) ∧ src' <+: A ∧ Broken rdFails evs') ∨
    ∃ x' fd, readallLoop evs src n x = some (-1, x', fd) ∧ RDead fd := by
  induction evs generalizing src n x w with
  | nil =>
    cases n with
    | zero =>
      cases List.eq_nil_of_length_eq_zero hw
      exact .inr (.inl ⟨src, [], by simp [readallLoop], hs, hb⟩)
    | succ n => exact .inl rfl
  | cons e evs ih =>
    cases n with
    | zero =>
      cases List.eq_nil_of_length_eq_zero hw
      exact .inr (.inl ⟨src, e :: evs, by simp [readallLoop], hs, hb⟩)
    | succ n =>
      have hb' : Broken rdFails evs := (List.pairwise_cons.mp hb).2
      cases e with
      | data m =>
        unfold readallLoop
        dsimp only
        split
        · rename_i h0
          rw [got_nil _ _ _ (chunk_pos n)] at h0
          exact .inr (.inr ⟨x, ⟨src, evs⟩, rfl, .inl h0⟩)
        · generalize hg : got src (min (n + 1) CHUNK) m = g
          have hl : g.length ≤ n + 1 := by
            have := got_length_le src (min (n + 1) CHUNK) m
            rw [hg] at this
            omega
          have hga : g ++ src.drop g.length = src := by
            have := got_append src (min (n + 1) CHUNK) m
            rw [hg] at this
            exact this
          obtain ⟨t, ht⟩ := hs
          rw [← hga, List.append_assoc] at ht
          have hwg : g ++ w.drop g.length = w := by
            have := congrArg (List.take g.length) ht
            rw [List.take_left, List.take_append_of_le_length (by omega)] at this
            conv => lhs; lhs; rw [this]
            exact List.take_append_drop _ _
          have hs' : src.drop g.length <+: w.drop g.length ++ A := by
            refine ⟨t, ?_⟩
            rw [← hwg, List.append_assoc] at ht
            exact List.append_cancel_left ht
          have := ih (src.drop g.length) (n + 1 - g.length) (x ++ g) (w.drop g.length) hs' (by rw [List.length_drop, hw]) hb'
          rw [List.append_assoc, hwg] at this
          exact this
      | eintr => exact ih src (n + 1) x w hs hw hb'
      | eagain => exact ih src (n + 1) x w hs hw hb'
      | err k =>
        refine .inr (.inr ⟨x, ⟨src, evs⟩, rfl, .inr fun e he => ?_⟩)
        exact (List.pairwise_cons.mp hb).1 e he trivial

/-- From a pipe that holds some of `w` and what follows it. -/
theorem readall_cut (fd : RFd) (n : Nat) (w A : Bytes) (hs : fd.src <+: w ++ A) (hw : w.length = n) (hb : Broken rdFails fd.evs) :
    readall fd n = none ∨
    (∃ fd', readall fd n = some (0, w, fd') ∧ fd'.src <+: A ∧ Broken rdFails fd'.evs) ∨
    ∃ x' fd', readall fd n = some (-1, x', fd') ∧ RDead fd' := by
  have := readallLoop_cut fd.evs fd.src n [] w A hs hw hb
  rw [List.nil_append] at this
  unfold readall
  rw [Int.toNat_natCast]
  rcases this with h | ⟨s, e, h, h'⟩ | h
  · exact .inl h
  · exact .inr (.inl ⟨_, h, h'⟩)
  · exact .inr (.inr h)

theorem readall_dead (fd : RFd) (n : Nat) (h : RDead fd) :
    readall fd (n + 1 : Nat) = none ∨ ∃ x' fd', readall fd (n + 1 : Nat) = some (-1, x', fd') ∧ RDead fd' := by
  unfold readall
  rw [Int.toNat_natCast]
  exact readallLoop_dead _ _ _ _ h

theorem writeallLoop_dead (evs : List WrEv) (out : Bytes) (b : Byte) (x : Bytes) (h : ∀ e ∈ evs, wrFails e) :
    writeallLoop evs out (b :: x) = none ∨ ∃ fd, writeallLoop evs out (b :: x) = some (-1, fd) ∧ WDead fd := by
  cases evs with
  | nil => exact .inl rfl
  | cons e evs =>
    have h' : WDead ⟨out, evs⟩ := fun e he => h e (.tail _ he)
    have he := h e (.head _)
    match e, he with
    | .zero, _ => exact .inr ⟨_, rfl, h'⟩
    | .err _, _ => exact .inr ⟨_, rfl, h'⟩
    | .eintr .err, _ => exact .inr ⟨_, rfl, h'⟩
    | .eagain .err, _ => exact .inr ⟨_, rfl, h'⟩

theorem writeallLoop_cut (evs : List WrEv) (out x : Bytes) (hb : Broken wrFails evs) :
    writeallLoop evs out x = none ∨
    (∃ fd, writeallLoop evs out x = some (0, fd) ∧ Broken wrFails fd.evs) ∨
    ∃ fd, writeallLoop evs out x = some (-1, fd) ∧ WDead fd := by
  fun_induction writeallLoop evs out x with
  | case1 evs out => exact .inr (.inl ⟨_, rfl, hb⟩)
  | case2 => exact .inl rfl
  | case3 m evs out b x p ih => exact ih (List.pairwise_cons.mp hb).2
  | case4 evs out b x => exact .inr (.inr ⟨_, rfl, fun e he => (List.pairwise_cons.mp hb).1 e he trivial⟩)
  | case5 evs out b x => exact .inr (.inr ⟨_, rfl, fun e he => (List.pairwise_cons.mp hb).1 e he trivial⟩)
  | case6 p evs out b x hp ih => exact ih (List.pairwise_cons.mp hb).2
  | case7 evs out b x => exact .inr (.inr ⟨_, rfl, fun e he => (List.pairwise_cons.mp hb).1 e he trivial⟩)
  | case8 p evs out b x hp ih => exact ih (List.pairwise_cons.mp hb).2
  | case9 e evs out b x => exact .inr (.inr ⟨_, rfl, fun e he => (List.pairwise_cons.mp hb).1 e he trivial⟩)

theorem pipe_write_cut (fd : WFd) (x : Bytes) (hb : Broken wrFails fd.evs) :
    pipe_write fd x = none ∨ (∃ fd', pipe_write fd x = some (0, fd') ∧ Broken wrFails fd'.evs) ∨
    ∃ fd', pipe_write fd x = some (-1, fd') ∧ WDead fd' := by
  unfold pipe_write
  rcases writeallLoop_cut fd.evs fd.out (uint64_pack x.length) hb with h | ⟨fd1, h, hb1⟩ | ⟨fd1, h, hd⟩
  · have h' : writeall fd (uint64_pack x.length) = none := h
    rw [h']; exact .inl rfl
  · have h' : writeall fd (uint64_pack x.length) = _ := h
    rw [h']
    simp only [Option.bind_eq_bind, Option.bind_some]
    rw [if_neg (by decide)]
    rcases writeallLoop_cut fd1.evs fd1.out x hb1 with h | ⟨fd2, h, hb2⟩ | ⟨fd2, h, hd⟩
    · have h' : writeall fd1 x = none := h
      rw [h']; exact .inl rfl
    · have h' : writeall fd1 x = _ := h
      rw [h']
      simp only [Option.bind_some]
      rw [if_neg (by decide)]
      exact .inr (.inl ⟨_, rfl, hb2⟩)
    · have h' : writeall fd1 x = _ := h
      rw [h']
      simp only [Option.bind_some]
      rw [if_pos (by decide)]
      exact .inr (.inr ⟨_, rfl, hd⟩)
  · have h' : writeall fd (uint64_pack x.length) = _ := h
    rw [h']
    simp only [Option.bind_eq_bind, Option.bind_some]
    rw [if_pos (by decide)]
    exact .inr (.inr ⟨_, rfl, hd⟩)

theorem pipe_write_dead (fd : WFd) (x : Bytes) (hd : WDead fd) : pipe_write fd x = none ∨ ∃ fd', pipe_write fd x = some (-1, fd') ∧ WDead fd' := by
  unfold pipe_write
  have h8 : (uint64_pack x.length).length = 8 := (c16_pack _).1
  match hu : uint64_pack x.length, h8 with
  | b :: u, _ =>
  rcases writeallLoop_dead fd.evs fd.out b u hd with h | ⟨fd1, h, hd1⟩
  · have h' : writeall fd (b :: u) = none := h
    rw [h']; exact .inl rfl
  · have h' : writeall fd (b :: u) = _ := h
    rw [h']
    simp only [Option.bind_eq_bind, Option.bind_some]
    rw [if_pos (by decide)]
    exact .inr ⟨_, rfl, hd1⟩

/-- An arbitrary write does not touch whether reads work. -/
theorem readall8_cut (fd : RFd) (w A : Bytes) (h8 : w.length = 8) (hs : fd.src <+: w ++ A) (hb : Broken rdFails fd.evs) :
    readall fd 8 = none ∨ (∃ fd', readall fd 8 = some (0, w, fd') ∧ fd'.src <+: A ∧ Broken rdFails fd'.evs) ∨
    ∃ x' fd', readall fd 8 = some (-1, x', fd') ∧ RDead fd' := readall_cut fd 8 w A hs h8 hb

theorem pipe_readall_cut (fd : RFd) (x A : Bytes) (hx : x.length ≤ LIMIT) (hs : fd.src <+: frame x ++ A) (hb : Broken rdFails fd.evs) :
    pipe_readall fd x.length = none ∨
    (∃ fd', pipe_readall fd x.length = some (0, x, fd') ∧ fd'.src <+: A ∧ Broken rdFails fd'.evs) ∨
    ∃ x' fd', pipe_readall fd x.length = some (-1, x', fd') ∧ RDead fd' := by
  have hL : LIMIT = 1048576 := rfl
  unfold pipe_readall
  rw [if_neg (by omega)]
  rw [frame, List.append_assoc] at hs
  have hh : Pipe.Spec.Header (uint64_pack x.length) x.length := header_pack _ (by omega)
  rcases readall8_cut fd _ _ hh.1 hs hb with h | ⟨fd1, h, hs1, hb1⟩ | ⟨x1, fd1, h, hd⟩
  · rw [h]; exact .inl rfl
  · rw [h]
    simp only [Option.bind_eq_bind, Option.bind_some]
    rw [if_neg (by decide), if_neg (by rw [unpackU_header hh]; simp)]
    exact readall_cut fd1 _ x A hs1 rfl hb1
  · rw [h]
    simp only [Option.bind_eq_bind, Option.bind_some]
    rw [if_pos (by decide)]
    exact .inr (.inr ⟨_, _, rfl, hd⟩)

theorem pipe_readall_dead (fd : RFd) (n : Nat) (hn : n ≤ LIMIT) (hd : RDead fd) :
    pipe_readall fd n = none ∨ ∃ x' fd', pipe_readall fd n = some (-1, x', fd') ∧ RDead fd' := by
  unfold pipe_readall
  rw [if_neg (by omega)]
  rcases readall_dead fd 7 hd with h | ⟨x1, fd1, h, hd⟩
  · have h' : readall fd 8 = _ := h
    rw [h']; exact .inl rfl
  · have h' : readall fd 8 = _ := h
    rw [h']
    simp only [Option.bind_eq_bind, Option.bind_some]
    rw [if_pos (by decide)]
    exact .inr ⟨_, _, rfl, hd⟩

theorem pipe_readmax_cut (fd : RFd) (x A : Bytes) (max : Nat) (hm : max ≤ LIMIT) (hx : x.length ≤ max) (hs : fd.src <+: frame x ++ A) (hb : Broken rdFails fd.evs) :
    pipe_readmax fd max = none ∨
    (∃ fd', pipe_readmax fd max = some (0, x, x.length, fd') ∧ fd'.src <+: A ∧ Broken rdFails fd'.evs) ∨
    ∃ x' n' fd', pipe_readmax fd max = some (-1, x', n', fd') ∧ RDead fd' := by
  have hL : LIMIT = 1048576 := rfl
  unfold pipe_readmax
  rw [if_neg (by omega)]
  rw [frame, List.append_assoc] at hs
  have hh : Pipe.Spec.Header (uint64_pack x.length) x.length := header_pack _ (by omega)
  rcases readall8_cut fd _ _ hh.1 hs hb with h | ⟨fd1, h, hs1, hb1⟩ | ⟨x1, fd1, h, hd⟩
  · rw [h]; exact .inl rfl
  · rw [h]
    simp only [Option.bind_eq_bind, Option.bind_some]
    rw [if_neg (by decide), unpackU_header hh, if_neg (by omega)]
    rcases readall_cut fd1 _ x A hs1 rfl hb1 with h | ⟨fd2, h, hs2, hb2⟩ | ⟨x2, fd2, h, hd⟩
    · rw [h]; exact .inl rfl
    · rw [h]
      simp only [Option.bind_some]
      rw [if_neg (by decide)]
      exact .inr (.inl ⟨_, rfl, hs2, hb2⟩)
    · rw [h]
      simp only [Option.bind_some]
      rw [if_pos (by decide)]
      exact .inr (.inr ⟨_, _, _, rfl, hd⟩)
  · rw [h]
    simp only [Option.bind_eq_bind, Option.bind_some]
    rw [if_pos (by decide)]
    exact .inr (.inr ⟨_, _, _, rfl, hd⟩)

theorem pipe_readmax_dead (fd : RFd) (n : Nat) (hd : RDead fd) :
    pipe_readmax fd n = none ∨ ∃ x' n' fd', pipe_readmax fd n = some (-1, x', n', fd') ∧ RDead fd' := by
  unfold pipe_readmax
  split
  · exact .inr ⟨_, _, _, rfl, hd⟩
  rcases readall_dead fd 7 hd with h | ⟨x1, fd1, h, hd⟩
  · have h' : readall fd 8 = _ := h
    rw [h']; exact .inl rfl
  · have h' : readall fd 8 = _ := h
    rw [h']
    simp only [Option.bind_eq_bind, Option.bind_some]
    rw [if_pos (by decide)]
    exact .inr ⟨_, _, _, rfl, hd⟩

theorem pipe_readalloc_cut (fd : RFd) (x A : Bytes) (allocOk : Nat → Bool) (ha : allocOk x.length = true) (hx : x.length < 2 ^ 63)
    (hs : fd.src <+: frame x ++ A) (hb : Broken rdFails fd.evs) :
    pipe_readalloc allocOk fd = none ∨
    (∃ fd', pipe_readalloc allocOk fd = some (.block x, fd') ∧ fd'.src <+: A ∧ Broken rdFails fd'.evs) ∨
    ∃ fd', pipe_readalloc allocOk fd = some (.null, fd') ∧ RDead fd' := by
  unfold pipe_readalloc
  rw [frame, List.append_assoc] at hs
  have h8 : (uint64_pack (x.length : Int)).length = 8 := (c16_pack _).1
  rcases readall8_cut fd _ _ h8 hs hb with h | ⟨fd1, h, hs1, hb1⟩ | ⟨x1, fd1, h, hd⟩
  · rw [h]; exact .inl rfl
  · rw [h]
    simp only [Option.bind_eq_bind, Option.bind_some]
    rw [c16_unpack_pack _ (by unfold IsLL llmin llmax; omega), if_neg (by decide), if_neg (by omega), Int.toNat_natCast, if_neg (by rw [ha]; decide)]
    rcases readall_cut fd1 _ x A hs1 rfl hb1 with h | ⟨fd2, h, hs2, hb2⟩ | ⟨x2, fd2, h, hd⟩
    · rw [h]; exact .inl rfl
    · rw [h]
      simp only [Option.bind_some]
      rw [if_neg (by decide)]
      exact .inr (.inl ⟨_, rfl, hs2, hb2⟩)
    · rw [h]
      simp only [Option.bind_some]
      rw [if_pos (by decide)]
      exact .inr (.inr ⟨_, rfl, hd⟩)
  · rw [h]
    simp only [Option.bind_eq_bind, Option.bind_some]
    rw [if_pos (by decide)]
    exact .inr (.inr ⟨_, rfl, hd⟩)

theorem pipe_readalloc_error_cut (fd : RFd) (e : Int) (A : Bytes) (allocOk : Nat → Bool) (he : 0 < e ∧ e < 2 ^ 31)
    (hs : fd.src <+: uint64_pack (-e) ++ A) (hb : Broken rdFails fd.evs) :
    pipe_readalloc allocOk fd = none ∨
    (∃ fd', pipe_readalloc allocOk fd = some (.remote e, fd') ∧ fd'.src <+: A ∧ Broken rdFails fd'.evs) ∨
    ∃ fd', pipe_readalloc allocOk fd = some (.null, fd') ∧ RDead fd' := by
  unfold pipe_readalloc
  have h8 : (uint64_pack (-e)).length = 8 := (c16_pack _).1
  rcases readall8_cut fd _ _ h8 hs hb with h | ⟨fd1, h, hs1, hb1⟩ | ⟨x1, fd1, h, hd⟩
  · rw [h]; exact .inl rfl
  · rw [h]
    simp only [Option.bind_eq_bind, Option.bind_some]
    rw [c16_unpack_pack _ (by unfold IsLL llmin llmax; omega), if_neg (by decide), if_pos (by omega), if_neg (by unfold llmin; omega)]
    exact .inr (.inl ⟨_, by simp, hs1, hb1⟩)
  · rw [h]
    simp only [Option.bind_eq_bind, Option.bind_some]
    rw [if_pos (by decide)]
    exact .inr (.inr ⟨_, rfl, hd⟩)

theorem pipe_readalloc_dead (fd : RFd) (allocOk : Nat → Bool) (hd : RDead fd) :
    pipe_readalloc allocOk fd = none ∨ ∃ fd', pipe_readalloc allocOk fd = some (.null, fd') ∧ RDead fd' := by
  unfold pipe_readalloc
  rcases readall_dead fd 7 hd with h | ⟨x1, fd1, h, hd⟩
  · have h' : readall fd 8 = _ := h
    rw [h']; exact .inl rfl
  · have h' : readall fd 8 = _ := h
    rw [h']
    simp only [Option.bind_eq_bind, Option.bind_some]
    rw [if_pos (by decide)]
    exact .inr ⟨_, rfl, hd⟩

/-! ### The requests -/

namespace Net

/-- Unless it is still waiting, the code gets to `Q` or fails with `D`.
(Specification or proof notion; models no line of /repo.) -/
def Cut {α : Type} (m : M α) (n : N) (Q : α → N → Prop) (D : N → Prop) : Prop :=
  match m n with
  | .ok a n => Q a n
  | .fail n => D n
  | .blocked _ => True
  | .ub _ => False

/-- The pipe from the key process holds some of `A`, and the pipes do not recover.
(Specification or proof notion; models no line of /repo.) -/
def Held (A : Bytes) (n : N) : Prop := n.fr.src <+: A ∧ Broken rdFails n.fr.evs ∧ Broken wrFails n.to.evs

/-- No answer can come. (Specification or proof notion; models no line of /repo.) -/
def Dead (n : N) : Prop := RDead n.fr ∨ WDead n.to

theorem Cut.bind {α β : Type} {m : M α} {f : α → M β} {n : N} {Q : β → N → Prop} {D : N → Prop}
    (h : Cut m n (fun a n => Cut (f a) n Q D) D) : Cut (m >>= f) n Q D := by
  unfold Cut at h ⊢
  have e : (m >>= f) n = match m n with | .ok a s => f a s | .fail n => .fail n | .blocked n => .blocked n | .ub n => .ub n := rfl
  rw [e]
  revert h
  cases m n <;> exact id

theorem Cut.mono {α : Type} {m : M α} {n : N} {Q Q' : α → N → Prop} {D D' : N → Prop} (h : Cut m n Q D) (hq : ∀ a n, Q a n → Q' a n) (hd : ∀ n, D n → D' n) :
    Cut m n Q' D' := by
  unfold Cut at h ⊢
  revert h
  cases m n <;> first | exact hq _ _ | exact hd _ | exact id

theorem Cut.orFail {α : Type} {m : M α} {n : N} {Q : Option α → N → Prop} (h : Cut m n (fun a n => Q (some a) n) fun n => Q none n) : Go (orFail m) n Q := by
  unfold Go Cut Net.orFail at *
  revert h
  cases m n <;> exact id

theorem Cut.write {A x : Bytes} {n : N} {D : N → Prop} (h : Held A n) (hd : ∀ n, Dead n → D n) : Cut (Net.write x) n (fun _ n => Held A n) D := by
  unfold Cut Net.write
  obtain ⟨h1, h2, h3⟩ := h
  rcases pipe_write_cut n.to x h3 with e | ⟨fd, e, h⟩ | ⟨fd, e, h⟩
  · rw [e]; trivial
  · rw [e]
    simp only []
    rw [if_neg (by decide)]
    exact ⟨h1, h2, h⟩
  · rw [e]
    simp only []
    rw [if_pos (by decide)]
    exact hd _ (.inr h)

theorem Cut.write_dead {x : Bytes} {n : N} {D : N → Prop} (h : Dead n) (hd : ∀ n, Dead n → D n) : Cut (Net.write x) n (fun _ n => RDead n.fr) D := by
  unfold Cut Net.write
  rcases h with h | h
  · cases e : pipe_write n.to x with
    | none => trivial
    | some v =>
      obtain ⟨r, fd⟩ := v
      simp only []
      by_cases hr : r = -1
      · rw [if_pos hr]; exact hd _ (.inl h)
      · rw [if_neg hr]; exact h
  · rcases pipe_write_dead n.to x h with e | ⟨fd, e, h⟩
    · rw [e]; trivial
    · rw [e]
      simp only []
      rw [if_pos (by decide)]
      exact hd _ (.inr h)

theorem Cut.readall {A x : Bytes} {n : N} {D : N → Prop} (hx : x.length ≤ LIMIT) (h : Held (frame x ++ A) n) (hd : ∀ n, Dead n → D n) :
    Cut (Net.readall x.length) n (fun y n => y = x ∧ Held A n) D := by
  unfold Cut Net.readall
  obtain ⟨h1, h2, h3⟩ := h
  rcases pipe_readall_cut n.fr x A hx h1 h2 with e | ⟨fd, e, h, h'⟩ | ⟨x', fd, e, h⟩
  · rw [e]; trivial
  · rw [e]
    simp only []
    rw [if_neg (by decide)]
    exact ⟨rfl, h, h', h3⟩
  · rw [e]
    simp only []
    rw [if_pos (by decide)]
    exact hd _ (.inl h)

theorem Cut.readall_dead {Q : Bytes → N → Prop} {k : Nat} {n : N} {D : N → Prop} (h : RDead n.fr) (hd : ∀ n, Dead n → D n) :
    Cut (Net.readall k) n Q D := by
  unfold Cut Net.readall
  have : pipe_readall n.fr k = none ∨ ∃ x' fd', pipe_readall n.fr k = some (-1, x', fd') ∧ RDead fd' := by
    by_cases hk : k ≤ LIMIT
    · exact pipe_readall_dead n.fr k hk h
    · unfold pipe_readall
      rw [if_pos (by omega)]
      exact .inr ⟨_, _, rfl, h⟩
  rcases this with e | ⟨x', fd, e, h⟩
  · rw [e]; trivial
  · rw [e]
    simp only []
    rw [if_pos (by decide)]
    exact hd _ (.inl h)

theorem Cut.readmax {A x : Bytes} {n : N} {max : Nat} {D : N → Prop} (hm : max ≤ LIMIT) (hx : x.length ≤ max) (h : Held (frame x ++ A) n) (hd : ∀ n, Dead n → D n) :
    Cut (Net.readmax max) n (fun y n => y = x ∧ Held A n) D := by
  unfold Cut Net.readmax
  obtain ⟨h1, h2, h3⟩ := h
  rcases pipe_readmax_cut n.fr x A max hm hx h1 h2 with e | ⟨fd, e, h, h'⟩ | ⟨x', n', fd, e, h⟩
  · rw [e]; trivial
  · rw [e]
    simp only []
    rw [if_neg (by decide)]
    exact ⟨rfl, h, h', h3⟩
  · rw [e]
    simp only []
    rw [if_pos (by decide)]
    exact hd _ (.inl h)

theorem Cut.readmax_dead {Q : Bytes → N → Prop} {k : Nat} {n : N} {D : N → Prop} (h : RDead n.fr) (hd : ∀ n, Dead n → D n) :
    Cut (Net.readmax k) n Q D := by
  unfold Cut Net.readmax
  rcases pipe_readmax_dead n.fr k h with e | ⟨x', n', fd, e, h⟩
  · rw [e]; trivial
  · rw [e]
    simp only []
    rw [if_pos (by decide)]
    exact hd _ (.inl h)

/-! What each request gives from a pipe that holds some of the answer, and what it gives
when no answer can come. -/

/-- Either the answer is complete, or the caller is told so and no later one will be.
(Specification or proof notion; models no line of /repo.) -/
def Cuts {α : Type} (m : M α) (ans : Bytes) (a lost : α) : Prop :=
  (∀ A n, Held (ans ++ A) n → Go m n fun r n => (r = a ∧ Held A n) ∨ (r = lost ∧ Dead n)) ∧
  ∀ n, Dead n → Go m n fun r n => r = lost ∧ Dead n

theorem dead_of {n : N} (h : RDead n.fr) : Dead n := .inl h

theorem getcert_dead {γ : Type} (allocOk : Nat → Bool) (parse : Bytes → Bytes → Option γ) (fn : Bytes) (n : N) (h : Dead n) :
    Go (getcert allocOk parse fn) n fun r n => r = none ∧ Dead n := by
  refine Cut.orFail (Cut.bind ((Cut.write_dead h fun n h => ⟨rfl, h⟩).mono (fun _ n h => Cut.bind ?_) fun _ h => h))
  unfold Cut Net.readalloc
  rcases pipe_readalloc_dead n.fr allocOk h with e | ⟨fd, e, h⟩
  · rw [e]; trivial
  · rw [e]; exact ⟨rfl, .inl h⟩

theorem getcert_cuts {γ : Type} (allocOk : Nat → Bool) (parse : Bytes → Bytes → Option γ) (fn pub : Bytes) (ha : allocOk pub.length = true)
    (hp : pub.length < 2 ^ 63) : Cuts (getcert allocOk parse fn) (frame pub) (parse pub fn) none := by
  refine ⟨fun A n h => ?_, getcert_dead allocOk parse fn⟩
  refine Cut.orFail (Cut.bind ((Cut.write h fun n h => .inr ⟨rfl, h⟩).mono (fun _ n h => Cut.bind ?_) fun _ h => h))
  unfold Cut Net.readalloc
  obtain ⟨h1, h2, h3⟩ := h
  rcases pipe_readalloc_cut n.fr pub A allocOk ha hp h1 h2 with e | ⟨fd, e, h, h'⟩ | ⟨fd, e, h⟩
  · rw [e]; trivial
  · rw [e]
    dsimp only
    cases hq : parse pub fn with
    | none => exact .inl ⟨rfl, h, h', h3⟩
    | some c => exact .inl ⟨rfl, h, h', h3⟩
  · rw [e]; exact .inr ⟨rfl, .inl h⟩

theorem getcert_error_cuts {γ : Type} (allocOk : Nat → Bool) (parse : Bytes → Bytes → Option γ) (fn : Bytes) (e : Int) (he : 0 < e ∧ e < 2 ^ 31) :
    Cuts (getcert allocOk parse fn) (uint64_pack (-e)) none none := by
  refine ⟨fun A n h => ?_, getcert_dead allocOk parse fn⟩
  refine Cut.orFail (Cut.bind ((Cut.write h fun n h => .inr ⟨rfl, h⟩).mono (fun _ n h => Cut.bind ?_) fun _ h => h))
  unfold Cut Net.readalloc
  obtain ⟨h1, h2, h3⟩ := h
  rcases pipe_readalloc_error_cut n.fr e A allocOk he h1 h2 with e | ⟨fd, e, h, h'⟩ | ⟨fd, e, h⟩
  · rw [e]; trivial
  · rw [e]; exact .inl ⟨rfl, h, h', h3⟩
  · rw [e]; exact .inr ⟨rfl, .inl h⟩

theorem mulgen_cuts (curve : Nat) (x : Bytes) (hx : x.length ≤ 133) : Cuts (mulgen curve) (frame x) (some x) none := by
  constructor
  · intro A n h
    refine Cut.orFail (Cut.bind ((Cut.write h fun n h => .inr ⟨rfl, h⟩).mono (fun _ n h => Cut.bind ?_) fun _ h => h))
    refine (Cut.write h fun n h => .inr ⟨rfl, h⟩).mono (fun _ n h => ?_) fun _ h => h
    refine (Cut.readmax (by decide) hx h fun n h => .inr ⟨rfl, h⟩).mono ?_ fun _ h => h
    rintro _ n ⟨rfl, h'⟩
    exact .inl ⟨rfl, h'⟩
  · intro n h
    refine Cut.orFail (Cut.bind ((Cut.write_dead h fun n h => ⟨rfl, h⟩).mono (fun _ n h => Cut.bind ?_) fun _ h => h))
    refine (Cut.write_dead (.inl h) fun n h => ⟨rfl, h⟩).mono (fun _ n h => ?_) fun _ h => h
    exact Cut.readmax_dead h fun n h => ⟨rfl, h⟩

theorem dosign_cuts (algo max : Nat) (d sig : Bytes) (hmax : max ≤ 2048) (hx : sig.length ≤ max) : Cuts (dosign algo d max) (frame sig) (some sig) none := by
  have hL : LIMIT = 1048576 := rfl
  constructor
  · intro A n h
    refine Cut.orFail (Cut.bind ((Cut.write h fun n h => .inr ⟨rfl, h⟩).mono (fun _ n h => Cut.bind ?_) fun _ h => h))
    refine (Cut.write h fun n h => .inr ⟨rfl, h⟩).mono (fun _ n h => Cut.bind ?_) fun _ h => h
    refine (Cut.write h fun n h => .inr ⟨rfl, h⟩).mono (fun _ n h => ?_) fun _ h => h
    refine (Cut.readmax (by omega) hx h fun n h => .inr ⟨rfl, h⟩).mono ?_ fun _ h => h
    rintro _ n ⟨rfl, h'⟩
    exact .inl ⟨rfl, h'⟩
  · intro n h
    refine Cut.orFail (Cut.bind ((Cut.write_dead h fun n h => ⟨rfl, h⟩).mono (fun _ n h => Cut.bind ?_) fun _ h => h))
    refine (Cut.write_dead (.inl h) fun n h => ⟨rfl, h⟩).mono (fun _ n h => Cut.bind ?_) fun _ h => h
    refine (Cut.write_dead (.inl h) fun n h => ⟨rfl, h⟩).mono (fun _ n h => ?_) fun _ h => h
    exact Cut.readmax_dead h fun n h => ⟨rfl, h⟩

theorem mul_cuts (g sid : Bytes) (version suite : Nat) (cr sr : Bytes) :
    (∀ A n, Held A n → Go (mul g sid version suite cr sr) n fun r n => (r = some () ∧ Held A n) ∨ Dead n) ∧
    ∀ n, Dead n → Go (mul g sid version suite cr sr) n fun _ n => Dead n := by
  constructor
  · intro A n h
    refine Cut.orFail (Cut.bind ((Cut.write h fun n h => .inr h).mono (fun _ n h => Cut.bind ?_) fun _ h => h))
    refine (Cut.write h fun n h => .inr h).mono (fun _ n h => Cut.bind ?_) fun _ h => h
    refine (Cut.write h fun n h => .inr h).mono (fun _ n h => Cut.bind ?_) fun _ h => h
    refine (Cut.write h fun n h => .inr h).mono (fun _ n h => Cut.bind ?_) fun _ h => h
    refine (Cut.write h fun n h => .inr h).mono (fun _ n h => ?_) fun _ h => h
    exact (Cut.write h fun n h => .inr h).mono (fun _ n h => .inl ⟨rfl, h⟩) fun _ h => h
  · intro n h
    refine Cut.orFail (Cut.bind ((Cut.write_dead h fun n h => h).mono (fun _ n h => Cut.bind ?_) fun _ h => h))
    refine (Cut.write_dead (.inl h) fun n h => h).mono (fun _ n h => Cut.bind ?_) fun _ h => h
    refine (Cut.write_dead (.inl h) fun n h => h).mono (fun _ n h => Cut.bind ?_) fun _ h => h
    refine (Cut.write_dead (.inl h) fun n h => h).mono (fun _ n h => Cut.bind ?_) fun _ h => h
    refine (Cut.write_dead (.inl h) fun n h => h).mono (fun _ n h => ?_) fun _ h => h
    exact (Cut.write_dead (.inl h) fun n h => h).mono (fun _ n h => .inl h) fun _ h => h

theorem prf_dead (len : Nat) (label : Bytes) (seeds : List Bytes) (rnd : Bytes) (n : N) (h : Dead n) :
    Go (prf len label seeds rnd) n fun r n => r = rnd ∧ Dead n := by
  refine Go.bind (Cut.orFail ?_)
  split
  · exact ⟨rfl, h⟩
  split
  · refine Cut.bind ((Cut.write_dead h fun n h => ⟨rfl, h⟩).mono (fun _ n h => Cut.bind ?_) fun _ h => h)
    refine (Cut.write_dead (.inl h) fun n h => ⟨rfl, h⟩).mono (fun _ n h => Cut.bind ?_) fun _ h => h
    refine (Cut.write_dead (.inl h) fun n h => ⟨rfl, h⟩).mono (fun _ n h => Cut.bind ?_) fun _ h => h
    refine (Cut.write_dead (.inl h) fun n h => ⟨rfl, h⟩).mono (fun _ n h => ?_) fun _ h => h
    exact Cut.readall_dead h fun n h => ⟨rfl, h⟩
  · exact ⟨rfl, h⟩

theorem prf_cuts (label seed rnd y : Bytes) (hlabel : label = b!"client finished" ∨ label = b!"server finished") (hy : y.length = 12) :
    Cuts (prf 12 label [seed] rnd) (frame y) y rnd := by
  refine ⟨fun A n h => ?_, prf_dead 12 label [seed] rnd⟩
  refine Go.bind (Cut.orFail ?_)
  rw [if_neg (by rcases hlabel with h | h <;> simp [h])]
  refine Cut.bind ((Cut.write h fun n h => .inr ⟨rfl, h⟩).mono (fun _ n h => Cut.bind ?_) fun _ h => h)
  refine (Cut.write h fun n h => .inr ⟨rfl, h⟩).mono (fun _ n h => Cut.bind ?_) fun _ h => h
  refine (Cut.write h fun n h => .inr ⟨rfl, h⟩).mono (fun _ n h => Cut.bind ?_) fun _ h => h
  refine (Cut.write h fun n h => .inr ⟨rfl, h⟩).mono (fun _ n h => ?_) fun _ h => h
  have := Cut.readall (x := y) (A := A) (n := n) (D := fun n => Go (pure (none.getD rnd)) n fun r n => (r = y ∧ Held A n) ∨ (r = rnd ∧ Dead n)) (by rw [hy]; decide) h fun n h => .inr ⟨rfl, h⟩
  rw [hy] at this
  refine this.mono ?_ fun _ h => h
  rintro _ n ⟨rfl, h'⟩
  exact .inl ⟨rfl, h'⟩

theorem ask_cut {op : Byte} {ty ver : Nat} {x A : Bytes} {n : N} {raw : Int} {D : N → Prop} (hraw : -64 ≤ raw ∧ raw ≤ 64)
    (h : Held (frame [offByte raw] ++ A) n) (hd : ∀ n, Dead n → D n) :
    Cut (askRecord op ty ver x) n (fun r n => r = raw ∧ Held A n) D := by
  unfold askRecord
  refine Cut.bind ((Cut.write h hd).mono (fun _ n h => Cut.bind ?_) fun _ h => h)
  refine (Cut.write h hd).mono (fun _ n h => Cut.bind ?_) fun _ h => h
  refine (Cut.write h hd).mono (fun _ n h => Cut.bind ?_) fun _ h => h
  refine (Cut.write h hd).mono (fun _ n h => Cut.bind ?_) fun _ h => h
  refine (Cut.readall (x := [offByte raw]) (by show 1 ≤ LIMIT; decide) h hd).mono ?_ fun _ h => h
  rintro _ n ⟨rfl, h⟩
  simp only [List.headD_cons, schar_offByte _ hraw.1 hraw.2]
  rw [if_neg (by omega)]
  exact ⟨rfl, h⟩

theorem ask_dead {op : Byte} {ty ver : Nat} {x : Bytes} {n : N} {Q : Int → N → Prop} {D : N → Prop} (h : Dead n) (hd : ∀ n, Dead n → D n) :
    Cut (askRecord op ty ver x) n Q D := by
  unfold askRecord
  refine Cut.bind ((Cut.write_dead h hd).mono (fun _ n h => Cut.bind ?_) fun _ h => h)
  refine (Cut.write_dead (.inl h) hd).mono (fun _ n h => Cut.bind ?_) fun _ h => h
  refine (Cut.write_dead (.inl h) hd).mono (fun _ n h => Cut.bind ?_) fun _ h => h
  refine (Cut.write_dead (.inl h) hd).mono (fun _ n h => ?_) fun _ h => h
  exact Cut.bind (Cut.readall_dead h hd)

theorem decrypt_dead (ty ver : Nat) (x : Bytes) (n : N) (h : Dead n) : Go (decrypt ty ver x) n fun r n => r = none ∧ Dead n :=
  Cut.orFail (Cut.bind (ask_dead h fun n h => ⟨rfl, h⟩))

theorem encrypt_dead (ty ver : Nat) (x : Bytes) (n : N) (h : Dead n) : Go (encrypt ty ver x) n fun r n => r = none ∧ Dead n :=
  Cut.orFail (Cut.bind (ask_dead h fun n h => ⟨rfl, h⟩))

theorem decrypt_cuts (ty ver : Nat) (x z : Bytes) (raw : Int) (hx : x.length ≤ 16709) (hraw : -64 ≤ raw ∧ raw ≤ 64) (hz : z.length ≤ x.length) :
    Cuts (decrypt ty ver x) (frame [offByte raw] ++ frame z) (emptyFails (some (raw, z))) none := by
  have hL : LIMIT = 1048576 := rfl
  refine ⟨fun A n h => ?_, decrypt_dead ty ver x⟩
  rw [List.append_assoc] at h
  refine Cut.orFail (Cut.bind ((ask_cut hraw h fun n h => .inr ⟨rfl, h⟩).mono ?_ fun _ h => h))
  rintro _ n ⟨rfl, h'⟩
  refine Cut.bind ((Cut.readmax (by omega) hz h' fun n h => .inr ⟨rfl, h⟩).mono ?_ fun _ h => h)
  intro y n h2
  obtain ⟨e, h2⟩ := h2
  subst y
  cases z with
  | nil => exact .inl ⟨rfl, h2⟩
  | cons b z => exact .inl ⟨rfl, h2⟩

theorem encrypt_cuts (ty ver : Nat) (x z : Bytes) (raw : Int) (hx : x.length ≤ 16709) (hraw : -64 ≤ raw ∧ raw ≤ 64) (hz : z.length ≤ x.length + 85) :
    Cuts (encrypt ty ver x) (frame [offByte raw] ++ frame z) (some (raw, z)) none := by
  have hL : LIMIT = 1048576 := rfl
  refine ⟨fun A n h => ?_, encrypt_dead ty ver x⟩
  rw [List.append_assoc] at h
  refine Cut.orFail (Cut.bind ((ask_cut hraw h fun n h => .inr ⟨rfl, h⟩).mono ?_ fun _ h => h))
  rintro _ n ⟨rfl, h'⟩
  refine Cut.bind ((Cut.readmax (by omega) hz h' fun n h => .inr ⟨rfl, h⟩).mono ?_ fun _ h => h)
  rintro _ n ⟨rfl, h2⟩
  exact .inl ⟨rfl, h2⟩

end Net

end Key
