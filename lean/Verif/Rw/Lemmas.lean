import Verif.BaseLemmas
import Verif.Rw.Model
namespace Rw
open Io

theorem got_length_le (src : Bytes) (k m : Nat) : (got src k m).length ≤ k := by
  simp [got]; omega

theorem got_append (src : Bytes) (k m : Nat) :
    got src k m ++ src.drop (got src k m).length = src := by
  unfold got
  simp only [List.length_take]
  by_cases h : min k (m + 1) ≤ src.length
  · rw [Nat.min_eq_left h, List.take_append_drop]
  · have h' : src.length ≤ min k (m + 1) := by omega
    rw [Nat.min_eq_right h', List.take_of_length_le h', List.drop_length, List.append_nil]

theorem got_nil (src : Bytes) (k m : Nat) (hk : 0 < k) : (got src k m).length = 0 ↔ src = [] := by
  simp [got]; omega

theorem chunk_pos (n : Nat) : 0 < min (n + 1) CHUNK := by simp [CHUNK]; omega

theorem readallLoop_prefix (evs : List RdEv) (src : Bytes) (n : Nat) (x : Bytes)
    (r : Int) (y : Bytes) (fd : RFd) (h : readallLoop evs src n x = some (r, y, fd)) :
    ∃ g used, y = x ++ g ∧ src = g ++ fd.src ∧ evs = used ++ fd.evs ∧ g.length ≤ n ∧
      ((r = 0 ∧ g.length = n) ∨
       (r = -1 ∧ g.length < n ∧
         ((fd.src = [] ∧ ∃ u m, used = u ++ [.data m]) ∨ ∃ u e, used = u ++ [.err e]))) := by
  induction evs generalizing src n x with
  | nil =>
    cases n with
    | zero =>
      simp only [readallLoop, Option.some.injEq, Prod.mk.injEq] at h
      obtain ⟨rfl, rfl, rfl⟩ := h
      exact ⟨[], [], by simp, by simp, by simp, by simp, .inl ⟨rfl, rfl⟩⟩
    | succ n => simp [readallLoop] at h
  | cons ev evs ih =>
    cases n with
    | zero =>
      simp only [readallLoop, Option.some.injEq, Prod.mk.injEq] at h
      obtain ⟨rfl, rfl, rfl⟩ := h
      exact ⟨[], [], by simp, by simp, by simp, by simp, .inl ⟨rfl, rfl⟩⟩
    | succ n =>
      cases ev with
      | data m =>
        rw [readallLoop] at h
        by_cases hg : (got src (min (n + 1) CHUNK) m).length = 0
        · rw [if_pos hg] at h
          simp only [Option.some.injEq, Prod.mk.injEq] at h
          obtain ⟨rfl, rfl, rfl⟩ := h
          have hs := (got_nil src _ m (chunk_pos n)).mp hg
          subst hs
          exact ⟨[], [.data m], by simp, by simp, by simp, by simp,
            .inr ⟨rfl, by simp, .inl ⟨rfl, [], m, rfl⟩⟩⟩
        · rw [if_neg hg] at h
          obtain ⟨g, used, e1, e2, e3, e4, e5⟩ := ih _ _ _ h
          have hle := got_length_le src (min (n + 1) CHUNK) m
          have hap := got_append src (min (n + 1) CHUNK) m
          refine ⟨got src (min (n + 1) CHUNK) m ++ g, .data m :: used, ?_, ?_, ?_, ?_, ?_⟩
          · rw [e1, List.append_assoc]
          · rw [List.append_assoc, ← e2, hap]
          · rw [e3]; rfl
          · simp only [List.length_append]; omega
          · rcases e5 with ⟨h1, h2⟩ | ⟨h1, h2, h3⟩
            · left; refine ⟨h1, ?_⟩; simp only [List.length_append]; omega
            · right
              refine ⟨h1, by simp only [List.length_append]; omega, ?_⟩
              rcases h3 with ⟨h3, u, m', rfl⟩ | ⟨u, e, rfl⟩
              · exact .inl ⟨h3, .data m :: u, m', rfl⟩
              · exact .inr ⟨.data m :: u, e, rfl⟩
      | eintr =>
        rw [readallLoop] at h
        obtain ⟨g, used, e1, e2, e3, e4, e5⟩ := ih _ _ _ h
        refine ⟨g, .eintr :: used, e1, e2, by rw [e3]; rfl, e4, ?_⟩
        rcases e5 with h1 | ⟨h1, h2, h3⟩
        · exact .inl h1
        · refine .inr ⟨h1, h2, ?_⟩
          rcases h3 with ⟨h3, u, m', rfl⟩ | ⟨u, e, rfl⟩
          · exact .inl ⟨h3, .eintr :: u, m', rfl⟩
          · exact .inr ⟨.eintr :: u, e, rfl⟩
      | eagain =>
        rw [readallLoop] at h
        obtain ⟨g, used, e1, e2, e3, e4, e5⟩ := ih _ _ _ h
        refine ⟨g, .eagain :: used, e1, e2, by rw [e3]; rfl, e4, ?_⟩
        rcases e5 with h1 | ⟨h1, h2, h3⟩
        · exact .inl h1
        · refine .inr ⟨h1, h2, ?_⟩
          rcases h3 with ⟨h3, u, m', rfl⟩ | ⟨u, e, rfl⟩
          · exact .inl ⟨h3, .eagain :: u, m', rfl⟩
          · exact .inr ⟨.eagain :: u, e, rfl⟩
      | err e =>
        simp only [readallLoop, Option.some.injEq, Prod.mk.injEq] at h
        obtain ⟨rfl, rfl, rfl⟩ := h
        exact ⟨[], [.err e], by simp, by simp, by simp, by simp,
          .inr ⟨rfl, by simp, .inr ⟨[], e, rfl⟩⟩⟩

/-- Number of successful read outcomes in a schedule. -/
def dataCount : List RdEv → Nat
  | [] => 0
  | .data _ :: evs => dataCount evs + 1
  | _ :: evs => dataCount evs

theorem readallLoop_progress (evs : List RdEv) (src : Bytes) (n : Nat) (x : Bytes)
    (hd : n ≤ dataCount evs) : readallLoop evs src n x ≠ none := by
  induction evs generalizing src n x with
  | nil => cases n with
    | zero => simp [readallLoop]
    | succ n => simp [dataCount] at hd
  | cons ev evs ih =>
    cases n with
    | zero => simp [readallLoop]
    | succ n =>
      cases ev with
      | data m =>
        rw [readallLoop]
        split
        · simp
        · next h =>
          apply ih
          simp [dataCount] at hd
          omega
      | eintr => rw [readallLoop]; exact ih _ _ _ (by simpa [dataCount] using hd)
      | eagain => rw [readallLoop]; exact ih _ _ _ (by simpa [dataCount] using hd)
      | err e => simp [readallLoop]

theorem put_append (x : Bytes) (k m : Nat) : put x k m ++ x.drop (put x k m).length = x :=
  got_append x k m

theorem put_ne (b : Byte) (x : Bytes) (m : Nat) :
    0 < (put (b :: x) (min (b :: x).length CHUNK) m).length := by
  simp [put, CHUNK]; omega

theorem writeallLoop_prefix (evs : List WrEv) (out x : Bytes) (r : Int) (fd : WFd)
    (h : writeallLoop evs out x = some (r, fd)) :
    ∃ p q used, x = p ++ q ∧ fd.out = out ++ p ∧ evs = used ++ fd.evs ∧
      ((r = 0 ∧ q = []) ∨
       (r = -1 ∧ q ≠ [] ∧ ∃ u ev, used = u ++ [ev] ∧
         (ev = .zero ∨ ev = .eintr .err ∨ ev = .eagain .err ∨ ∃ e, ev = .err e))) := by
  induction evs generalizing out x with
  | nil =>
    cases x with
    | nil =>
      simp only [writeallLoop, Option.some.injEq, Prod.mk.injEq] at h
      obtain ⟨rfl, rfl⟩ := h
      exact ⟨[], [], [], by simp, by simp, by simp, .inl ⟨rfl, rfl⟩⟩
    | cons b x => simp [writeallLoop] at h
  | cons ev evs ih =>
    cases x with
    | nil =>
      simp only [writeallLoop, Option.some.injEq, Prod.mk.injEq] at h
      obtain ⟨rfl, rfl⟩ := h
      exact ⟨[], [], [], by simp, by simp, by simp, .inl ⟨rfl, rfl⟩⟩
    | cons b x =>
      have retry : ∀ (h' : writeallLoop evs out (b :: x) = some (r, fd)),
          ∃ p q used, b :: x = p ++ q ∧ fd.out = out ++ p ∧ ev :: evs = used ++ fd.evs ∧
          ((r = 0 ∧ q = []) ∨
           (r = -1 ∧ q ≠ [] ∧ ∃ u ev, used = u ++ [ev] ∧
             (ev = .zero ∨ ev = .eintr .err ∨ ev = .eagain .err ∨ ∃ e, ev = .err e))) := by
        intro h'
        obtain ⟨p, q, used, e1, e2, e3, e4⟩ := ih _ _ h'
        refine ⟨p, q, ev :: used, e1, e2, by rw [e3]; rfl, ?_⟩
        rcases e4 with e4 | ⟨e4, e5, u, v, rfl, e6⟩
        · exact .inl e4
        · exact .inr ⟨e4, e5, ev :: u, v, rfl, e6⟩
      cases ev with
      | data m =>
        rw [writeallLoop] at h
        obtain ⟨p, q, used, e1, e2, e3, e4⟩ := ih _ _ h
        have hap := put_append (b :: x) (min (b :: x).length CHUNK) m
        refine ⟨put (b :: x) (min (b :: x).length CHUNK) m ++ p, q, .data m :: used, ?_, ?_, ?_, ?_⟩
        · rw [List.append_assoc, ← e1, hap]
        · rw [e2, List.append_assoc]
        · rw [e3]; rfl
        · rcases e4 with e4 | ⟨e4, e5, u, v, rfl, e6⟩
          · exact .inl e4
          · exact .inr ⟨e4, e5, .data m :: u, v, rfl, e6⟩
      | zero =>
        simp only [writeallLoop, Option.some.injEq, Prod.mk.injEq] at h
        obtain ⟨rfl, rfl⟩ := h
        exact ⟨[], b :: x, [.zero], by simp, by simp, by simp, .inr ⟨rfl, by simp, [], _, rfl, .inl rfl⟩⟩
      | eintr pe =>
        rw [writeallLoop] at h
        by_cases hp : pe = .err
        · rw [if_pos hp] at h
          simp only [Option.some.injEq, Prod.mk.injEq] at h
          obtain ⟨rfl, rfl⟩ := h
          subst hp
          exact ⟨[], b :: x, [.eintr .err], by simp, by simp, by simp,
            .inr ⟨rfl, by simp, [], _, rfl, .inr (.inl rfl)⟩⟩
        · rw [if_neg hp] at h; exact retry h
      | eagain pe =>
        rw [writeallLoop] at h
        by_cases hp : pe = .err
        · rw [if_pos hp] at h
          simp only [Option.some.injEq, Prod.mk.injEq] at h
          obtain ⟨rfl, rfl⟩ := h
          subst hp
          exact ⟨[], b :: x, [.eagain .err], by simp, by simp, by simp,
            .inr ⟨rfl, by simp, [], _, rfl, .inr (.inr (.inl rfl))⟩⟩
        · rw [if_neg hp] at h; exact retry h
      | err e =>
        simp only [writeallLoop, Option.some.injEq, Prod.mk.injEq] at h
        obtain ⟨rfl, rfl⟩ := h
        exact ⟨[], b :: x, [.err e], by simp, by simp, by simp,
          .inr ⟨rfl, by simp, [], _, rfl, .inr (.inr (.inr ⟨e, rfl⟩))⟩⟩

/-- Number of successful write outcomes. -/
def wdataCount : List WrEv → Nat
  | [] => 0
  | .data _ :: evs => wdataCount evs + 1
  | _ :: evs => wdataCount evs

theorem writeallLoop_progress (evs : List WrEv) (out x : Bytes) (hd : x.length ≤ wdataCount evs) :
    writeallLoop evs out x ≠ none := by
  induction evs generalizing out x with
  | nil => cases x with
    | nil => simp [writeallLoop]
    | cons b x => simp [wdataCount] at hd
  | cons ev evs ih =>
    cases x with
    | nil => simp [writeallLoop]
    | cons b x =>
      cases ev with
      | data m =>
        rw [writeallLoop]
        apply ih
        have := put_ne b x m
        simp only [List.length_drop, List.length_cons, wdataCount] at hd ⊢
        simp only [List.length_cons] at this
        omega
      | zero => simp [writeallLoop]
      | eintr p =>
        rw [writeallLoop]; split
        · simp
        · exact ih _ _ (by simpa [wdataCount] using hd)
      | eagain p =>
        rw [writeallLoop]; split
        · simp
        · exact ih _ _ (by simpa [wdataCount] using hd)
      | err e => simp [writeallLoop]

end Rw
