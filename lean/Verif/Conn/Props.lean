import Verif.Conn.Lemmas
/-
C62: connecting to one of several addresses.
-/
namespace Conn

/-- C62: preparing sockets, in a process whose other open descriptors are `o`: afterwards the first `num` slots hold two
open descriptors each (success), or nothing stays open (failure); earlier attempts are cleaned up. -/
theorem c62_init (o : List Nat) (num : Nat) (s : St) (h : Inv o s) (ev ev' : List Ev) (b : Bool) (s' : St)
    (e : init num s ev = some (b, s', ev')) :
    (b = true → Ready o (min num maxip) s') ∧
    (b = false → (∀ x, x ∈ s'.opened ↔ x ∈ o) ∧ ∀ j, s'.fds j = none ∧ s'.dups j = none) := by
  obtain ⟨h1, h2, h3, h4⟩ := reset_ok h
  obtain ⟨r, _, _⟩ := initLoop_ok (min num maxip) 0 (reset s) ev ⟨h1, fun j hj => absurd hj (by omega), fun j _ => h2 j⟩ (by omega) b s' ev' e
  constructor
  · rintro rfl; simpa using r
  · rintro rfl
    have r' : Ready o 0 s' := by simpa using r
    exact ⟨r'.inv.free (fun j => r'.empty j (by omega)), fun j => r'.empty j (by omega)⟩

/-- C62: for every candidate list (only the first eight candidates count), every answer of the kernel and every completion order, an attempt over prepared slots
either reports one candidate's two descriptors, which are then the only new descriptors open, on which a connect to the address put in
front of the list was issued and reported successful; or fails with no new descriptor open. -/
theorem c62_conn (o : List Nat) (timeout : Int) (ip : Bytes) (iplen : Int) (n : Nat) (hl : 16 ≤ iplen) (hn : n = min (iplen.toNat / 16) 8)
    (s : St) (hs : Ready o n s) (ht : 1 ≤ timeout) (ev ev' : List Ev) (d : Done)
    (e : conn timeout ip iplen s ev = some (d, ev')) :
    (∃ fd d0 j, Won o ip n d fd d0 j ∧ s.fds j = some fd ∧ s.dups j = some d0) ∨
    (d.ret = .fail ∧ d.ip = ip ∧ (∀ x, x ∈ d.st.opened ↔ x ∈ o) ∧ ∀ j, d.st.fds j = none ∧ d.st.dups j = none) := by
  have hr := hs.run
  have h8 : maxip = 8 := rfl
  have hm : n ≤ maxip := by omega
  match ev, e with
  | .time t0 :: ev, e =>
    unfold conn at e
    simp only [] at e
    rw [if_neg (by omega), show (min iplen ((maxip * 16 : Nat) : Int)).toNat / 16 = n by omega] at e
    rcases hc : connectLoop ip n n 0 s ev with _ | ⟨r, ev2⟩
    · rw [hc] at e; cases e
    · rw [hc] at e
      have := connectLoop_ok hm ip n 0 s ev hr (by omega) (fun j fd hj => absurd hj (by omega)) r ev2 hc
      cases r with
      | inl d2 =>
        simp only [Option.some.injEq, Prod.mk.injEq] at e
        rw [← e.1]
        exact .inl this
      | inr s2 => exact pollLoop_ok hm ip _ s _ s2 ev2 this.1 this.2.1 this.2.2 d ev' e
  | [], e => simp [conn] at e
  | .socket _ :: _, e => simp [conn] at e
  | .dup _ :: _, e => simp [conn] at e
  | .connect _ :: _, e => simp [conn] at e
  | .poll _ _ :: _, e => simp [conn] at e
  | .isConnected _ :: _, e => simp [conn] at e

/-- A process with descriptors 0, 1, 2 and nothing tracked. -/
def start : St := ⟨fun _ => none, fun _ => none, [0, 1, 2], [], []⟩

theorem start_inv : Inv [0, 1, 2] start := by
  constructor <;> simp [start]

/-- C62, the two calls together, from a clean start: the descriptors open at the end are the ones open before and, on
success, exactly the reported pair. -/
theorem c62_whole (o : List Nat) (n : Nat) (hn : 1 ≤ n) (hm : n ≤ maxip) (s : St) (h : Inv o s) (timeout : Int) (ht : 1 ≤ timeout) (ip : Bytes)
    (ev ev' ev2 : List Ev) (b : Bool) (s' : St) (d : Done) (e1 : init n s ev = some (b, s', ev')) (hb : b = true)
    (e2 : conn timeout ip (16 * n : Nat) s' ev' = some (d, ev2)) :
    (∃ fd d0 j, d.ret = .ok fd (some d0) ∧ j < n ∧ (∀ x, x ∈ d.st.opened ↔ x ∈ o ∨ x = fd ∨ x = d0) ∧ fd ∉ o ∧ d0 ∉ o ∧
      fd ∈ d.st.success ∧ (fd, cand ip j) ∈ d.st.tried ∧ d.ip.take 16 = (cand ip j ++ ip.drop 16).take 16) ∨
    (d.ret = .fail ∧ ∀ x, x ∈ d.st.opened ↔ x ∈ o) := by
  have hr := (c62_init o n s h ev ev' b s' e1).1 hb
  rw [Nat.min_eq_left hm] at hr
  rcases c62_conn o timeout ip (16 * n : Nat) n (by omega) (by have : maxip = 8 := rfl; omega) s' hr ht ev' ev2 d e2 with ⟨fd, d0, j, w, _, _⟩ | ⟨h1, _, h2, _⟩
  · exact .inl ⟨fd, d0, j, w.ret, w.slot, w.opened, w.fresh.1, w.fresh.2.1, w.success, w.tried, by rw [w.ip]⟩
  · exact .inr ⟨h1, h2⟩

/-- Two candidates; the first fails while polled, the second connects. -/
def sampleEv : List Ev :=
  [.socket (some 3), .dup (some 4), .socket (some 5), .dup (some 6),
   .time 1000, .connect .inProgress, .connect .inProgress, .time 1001, .poll 9999 (.ready [true, false]), .isConnected false,
   .time 1002, .poll 9998 .eintr, .time 1003, .poll 9997 (.ready [true]), .isConnected true]

def sampleIp : Bytes := List.replicate 16 1 ++ List.replicate 16 2

example : ∃ s' ev' d, init 2 start sampleEv = some (true, s', ev') ∧ conn 10 sampleIp 32 s' ev' = some (d, []) ∧
    d.ret = .ok 5 (some 6) ∧ d.st.opened = [6, 5, 0, 1, 2] ∧ d.ip = List.replicate 16 2 ++ List.replicate 16 2 :=
  ⟨_, _, _, rfl, rfl, rfl, rfl, rfl⟩

/-- Preparing more slots than there are candidates leaves descriptors open after a successful attempt: the constraint that
conn_init() is called with iplen / 16 is needed. -/
theorem c62_extra_slots_leak : ∃ s' ev' d, init 2 start
      [.socket (some 3), .dup (some 4), .socket (some 5), .dup (some 6), .time 1000, .connect .connected] = some (true, s', ev') ∧
    conn 10 sampleIp 16 s' ev' = some (d, []) ∧ d.ret = .ok 3 (some 4) ∧ 5 ∈ d.st.opened ∧ 6 ∈ d.st.opened :=
  ⟨_, _, _, rfl, rfl, rfl, by decide, by decide⟩

end Conn
