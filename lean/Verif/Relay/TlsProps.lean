import Verif.Relay.Lemmas
import Verif.Relay.Tls
import Verif.Relay.ClearProps
import Verif.Pipe.Props
import Verif.Str.Props
import Verif.Path.Props
/-
C44–C46: the encrypted phase.
-/
namespace Relay.Tls
open Io Relay

/-! ### Specification -/

/-- Plaintext taken from the engine by one action. -/
def tookApp1 : Act Fd → Bytes
  | .eng (.recvapp off n) => off.take n
  | _ => []
/-- Record bytes taken from the engine by one action. -/
def tookRec1 : Act Fd → Bytes
  | .eng (.sendrec off n) => off.take n
  | _ => []
/-- Plaintext given to the engine by one action. -/
def gaveApp1 : Act Fd → Bytes
  | .eng (.sendapp mem n) => mem.take n
  | _ => []
/-- Record bytes given to the engine by one action. -/
def gaveRec1 : Act Fd → Bytes
  | .eng (.recvrec mem n) => mem.take n
  | _ => []
/-- The account records written by one action. -/
def user1 : Act Fd → List Bytes
  | .eng (.user d) => [d]
  | _ => []
/-- All plaintext taken from the engine, in order; and so on. -/
def tookApp (log : List (Act Fd)) : Bytes := log.flatMap tookApp1
def tookRec (log : List (Act Fd)) : Bytes := log.flatMap tookRec1
def gaveApp (log : List (Act Fd)) : Bytes := log.flatMap gaveApp1
def gaveRec (log : List (Act Fd)) : Bytes := log.flatMap gaveRec1
def users (log : List (Act Fd)) : List Bytes := log.flatMap user1

/-- One step of `lastState`. -/
def lastState1 (o : Option Flags) : Act Fd → Option Flags
  | .eng (.state f) => some f
  | _ => o
/-- The state the engine last reported. -/
def lastState (log : List (Act Fd)) : Option Flags := log.foldl lastState1 none

/-- The engine has reported at some time that it can send plaintext. -/
def CanSend (log : List (Act Fd)) : Prop := ∃ st, Act.eng (.state st) ∈ log ∧ st.sendapp = true

/-- The engine never reports received plaintext before it has reported (now or earlier)
that it can send plaintext. -/
def Ordered (log : List (Act Fd)) : Prop :=
  Always (fun pre a => ∀ st, a = .eng (.state st) → st.recvapp = true → st.sendapp = true ∨ CanSend pre) log

/-- The descriptor is closed: it was at the start of the phase, or was closed since. -/
def Closed (op0 : Fd → Bool) (pre : List (Act Fd)) (f : Fd) : Prop := op0 f = false ∨ Act.close f ∈ pre

/-- The loop has to wait for descriptor `f` when the engine reports state `st`. -/
def Wanted (op0 : Fd → Bool) (pre : List (Act Fd)) (st : Flags) : Fd → Prop
  | .peerout => st.sendrec = true ∧ ¬ Closed op0 pre .peerout
  | .peerin => st.recvrec = true ∧ ¬ Closed op0 pre .peerin ∧
      (¬ Closed op0 pre .childin ∨ st.sendrec = true ∨ ¬ Closed op0 pre .childout)
  | .childin => st.recvapp = true ∧ ¬ Closed op0 pre .childin
  | .childout => st.sendapp = true ∧ ¬ Closed op0 pre .childout ∧ ¬ Closed op0 pre .peerout
  | .ctl => False
  | .ack => False

/-- The last thing done was to wait for a set of descriptors with `f` in it. -/
def Waited (pre : List (Act Fd)) (f : Fd) : Prop := ∃ l, pre.getLast? = some (.eng (.wait l)) ∧ f ∈ l

/-- The account name in the certificate buffer: up to the first NUL (at most 255
bytes); with option -U also only up to the first '@'. -/
def account (fromcert : Bool) (buf : Bytes) : Bytes :=
  let s := (buf.take 255).takeWhile (· != 0)
  if fromcert then s.takeWhile (· != c! '@') else s

/-- A complete account record: one frame with a NUL-terminated name. -/
def Record (fromcert : Bool) (d : Bytes) : Prop :=
  ∃ name, NoNul name ∧ (fromcert = true → c! '@' ∉ name) ∧ name.length ≤ 255 ∧ Pipe.Spec.Frame d (name ++ [0])

/-- What the encrypted phase may do at each moment, given everything it did before.
`op0`: the descriptors open at its start; `fromcert`: option -U; `rep0`: the account record was sent before.

* it waits for exactly the wanted descriptors, and there is one;
* it reads and writes only what it just waited for;
* every acknowledgement of bytes offered by the engine directly follows the write of
  exactly these bytes, and every acknowledgement of bytes given to the engine directly
  follows the read of exactly these bytes; never more than the engine offered;
* a new transfer in a direction begins only when the earlier ones are acknowledged;
* plaintext goes to the child only while the engine reports plaintext, and (if the
  engine is `Ordered`) only after the account record;
* the account record is sent once, only after the engine could send plaintext;
* closes: see each case; nothing is done with a closed descriptor. -/
def Allowed (op0 : Fd → Bool) (fromcert rep0 : Bool) (pre : List (Act Fd)) (a : Act Fd) : Prop :=
  (∀ f, a.on = some f → ¬ Closed op0 pre f) ∧
  match a with
  | .write .childin d => d ≠ [] ∧ Waited pre .childin ∧ wroteOf .childin pre = tookApp pre ∧
      (rep0 = false → Ordered pre → ∃ u, users pre = [u] ∧ Record fromcert u)
  | .write .peerout d => d ≠ [] ∧ Waited pre .peerout ∧ wroteOf .peerout pre = tookRec pre
  | .write _ _ => False
  | .read .childout d => d ≠ [] ∧ Waited pre .childout ∧ readOf .childout pre = gaveApp pre
  | .read .peerin d => d ≠ [] ∧ Waited pre .peerin ∧ readOf .peerin pre = gaveRec pre
  | .read _ _ => False
  | .ended f => (f = .childout ∨ f = .peerin) ∧ Waited pre f
  | .failed f => (f = .childin ∨ f = .peerout) ∧ Waited pre f
  | .eng (.wait l) => l ≠ [] ∧ ∃ st, lastState pre = some st ∧ ∀ f, f ∈ l ↔ Wanted op0 pre st f
  | .eng (.recvapp off n) => 0 < n ∧ n ≤ off.length ∧ pre.getLast? = some (.write .childin (off.take n))
  | .eng (.sendrec off n) => 0 < n ∧ n ≤ off.length ∧ pre.getLast? = some (.write .peerout (off.take n))
  | .eng (.sendapp mem n) => 0 < n ∧ n ≤ mem.length ∧ pre.getLast? = some (.read .childout (mem.take n))
  | .eng (.recvrec mem n) => 0 < n ∧ n ≤ mem.length ∧ pre.getLast? = some (.read .peerin (mem.take n))
  | .eng .close => Closed op0 pre .childin ∧ Closed op0 pre .childout ∧
      ∃ st, lastState pre = some st ∧ st.closed = false
  | .eng (.user _) => rep0 = false ∧ users pre = [] ∧ CanSend pre ∧ ¬ Closed op0 pre .childin
  | .close .childin => pre.getLast? = some (.failed .childin) ∨ pre.getLast? = some (.sig (c! 'C')) ∨
      .sig (c! 'A') ∈ pre ∨
      ((Closed op0 pre .peerin ∨ Closed op0 pre .childout) ∧ ∃ st, lastState pre = some st ∧ st.recvapp = false)
  | .close .peerout => pre.getLast? = some (.failed .peerout) ∨
      (Closed op0 pre .childout ∧ ∃ st, lastState pre = some st ∧ st.closed = true ∧ st.sendrec = false)
  | .close .childout => pre.getLast? = some (.ended .childout) ∨ .sig (c! 'A') ∈ pre
  | .close .peerin => pre.getLast? = some (.ended .peerin)
  | .close _ => .sig (c! 'A') ∈ pre
  | _ => True

/-! ### Trace lemmas -/

theorem tookApp_append (a b : List (Act Fd)) : tookApp (a ++ b) = tookApp a ++ tookApp b := by simp [tookApp]
theorem tookRec_append (a b : List (Act Fd)) : tookRec (a ++ b) = tookRec a ++ tookRec b := by simp [tookRec]
theorem gaveApp_append (a b : List (Act Fd)) : gaveApp (a ++ b) = gaveApp a ++ gaveApp b := by simp [gaveApp]
theorem gaveRec_append (a b : List (Act Fd)) : gaveRec (a ++ b) = gaveRec a ++ gaveRec b := by simp [gaveRec]
theorem users_append (a b : List (Act Fd)) : users (a ++ b) = users a ++ users b := by simp [users]
theorem tookApp_one (a : Act Fd) : tookApp [a] = tookApp1 a := by simp [tookApp]
theorem tookRec_one (a : Act Fd) : tookRec [a] = tookRec1 a := by simp [tookRec]
theorem gaveApp_one (a : Act Fd) : gaveApp [a] = gaveApp1 a := by simp [gaveApp]
theorem gaveRec_one (a : Act Fd) : gaveRec [a] = gaveRec1 a := by simp [gaveRec]
theorem users_one (a : Act Fd) : users [a] = user1 a := by simp [users]
theorem lastState_snoc (l : List (Act Fd)) (a : Act Fd) : lastState (l ++ [a]) = lastState1 (lastState l) a := by
  simp [lastState]
theorem canSend_snoc (l : List (Act Fd)) (a : Act Fd) :
    CanSend (l ++ [a]) ↔ CanSend l ∨ ∃ st, a = .eng (.state st) ∧ st.sendapp = true := by
  simp only [CanSend, List.mem_append, List.mem_singleton]
  constructor
  · rintro ⟨st, h | h, h2⟩
    · exact .inl ⟨st, h, h2⟩
    · exact .inr ⟨st, h.symm, h2⟩
  · rintro (⟨st, h, h2⟩ | ⟨st, h, h2⟩)
    · exact ⟨st, .inl h, h2⟩
    · exact ⟨st, .inr h.symm, h2⟩
theorem ordered_snoc (l : List (Act Fd)) (a : Act Fd) :
    Ordered (l ++ [a]) ↔ Ordered l ∧
      ∀ st, a = .eng (.state st) → st.recvapp = true → st.sendapp = true ∨ CanSend l := by
  simp [Ordered, always_snoc]
theorem readOf_one (f : Fd) (a : Act Fd) : readOf f [a] = a.readOn f := by simp [readOf]
theorem wroteOf_one (f : Fd) (a : Act Fd) : wroteOf f [a] = a.wroteOn f := by simp [wroteOf]
theorem closed_snoc (op0 : Fd → Bool) (l : List (Act Fd)) (a : Act Fd) (f : Fd) :
    Closed op0 (l ++ [a]) f ↔ Closed op0 l f ∨ a = .close f := by
  simp only [Closed, List.mem_append, List.mem_singleton, or_assoc, @eq_comm _ a]

/-! ### Invariant -/

/-- Facts about descriptors and trace that hold between any two steps. -/
structure WInv (op0 : Fd → Bool) (fromcert rep0 : Bool) (w : W) : Prop where
  al : Always (Allowed op0 fromcert rep0) w.log
  cl : ∀ f, w.op f = false ↔ Closed op0 w.log f
  b1 : wroteOf .childin w.log = tookApp w.log
  b2 : wroteOf .peerout w.log = tookRec w.log
  b3 : readOf .childout w.log = gaveApp w.log
  b4 : readOf .peerin w.log = gaveRec w.log

/-- Record one action that transfers nothing. -/
theorem winv_act {op0 : Fd → Bool} {fromcert rep0 : Bool} {w : W} (h : WInv op0 fromcert rep0 w) (a : Act Fd)
    (ha : Allowed op0 fromcert rep0 w.log a) (hc : ∀ f, a ≠ .close f)
    (h1 : a.wroteOn .childin = tookApp1 a) (h2 : a.wroteOn .peerout = tookRec1 a)
    (h3 : a.readOn .childout = gaveApp1 a) (h4 : a.readOn .peerin = gaveRec1 a) : WInv op0 fromcert rep0 (w.act a) := by
  obtain ⟨i1, i2, i3, i4, i5, i6⟩ := h
  refine ⟨?_, ?_, ?_, ?_, ?_, ?_⟩
  · exact (always_snoc _ _ _).mpr ⟨i1, ha⟩
  · intro f
    show w.op f = false ↔ Closed op0 (w.log ++ [a]) f
    rw [closed_snoc, i2]
    simp [hc f]
  · show wroteOf _ (w.log ++ [a]) = tookApp (w.log ++ [a])
    rw [wroteOf_append, tookApp_append, wroteOf_one, tookApp_one, i3, h1]
  · show wroteOf _ (w.log ++ [a]) = tookRec (w.log ++ [a])
    rw [wroteOf_append, tookRec_append, wroteOf_one, tookRec_one, i4, h2]
  · show readOf _ (w.log ++ [a]) = gaveApp (w.log ++ [a])
    rw [readOf_append, gaveApp_append, readOf_one, gaveApp_one, i5, h3]
  · show readOf _ (w.log ++ [a]) = gaveRec (w.log ++ [a])
    rw [readOf_append, gaveRec_append, readOf_one, gaveRec_one, i6, h4]

/-- Record a transfer: two actions whose effects balance. -/
theorem winv_act2 {op0 : Fd → Bool} {fromcert rep0 : Bool} {w : W} (h : WInv op0 fromcert rep0 w) (a b : Act Fd)
    (ha : Allowed op0 fromcert rep0 w.log a) (hb : Allowed op0 fromcert rep0 (w.log ++ [a]) b) (hc : ∀ f, a ≠ .close f ∧ b ≠ .close f)
    (h1 : a.wroteOn .childin ++ b.wroteOn .childin = tookApp1 a ++ tookApp1 b)
    (h2 : a.wroteOn .peerout ++ b.wroteOn .peerout = tookRec1 a ++ tookRec1 b)
    (h3 : a.readOn .childout ++ b.readOn .childout = gaveApp1 a ++ gaveApp1 b)
    (h4 : a.readOn .peerin ++ b.readOn .peerin = gaveRec1 a ++ gaveRec1 b) : WInv op0 fromcert rep0 ((w.act a).act b) := by
  obtain ⟨i1, i2, i3, i4, i5, i6⟩ := h
  have e : ((w.act a).act b).log = w.log ++ [a] ++ [b] := rfl
  refine ⟨?_, ?_, ?_, ?_, ?_, ?_⟩
  · rw [e, always_snoc, always_snoc]; exact ⟨⟨i1, ha⟩, hb⟩
  · intro f
    rw [e, closed_snoc, closed_snoc]
    show w.op f = false ↔ _
    rw [i2]
    simp [hc f]
  · rw [e]; simp only [wroteOf_append, tookApp_append, wroteOf_one, tookApp_one, i3, List.append_assoc, h1]
  · rw [e]; simp only [wroteOf_append, tookRec_append, wroteOf_one, tookRec_one, i4, List.append_assoc, h2]
  · rw [e]; simp only [readOf_append, gaveApp_append, readOf_one, gaveApp_one, i5, List.append_assoc, h3]
  · rw [e]; simp only [readOf_append, gaveRec_append, readOf_one, gaveRec_one, i6, List.append_assoc, h4]

/-- Close a descriptor. -/
theorem winv_close {op0 : Fd → Bool} {fromcert rep0 : Bool} {w : W} (h : WInv op0 fromcert rep0 w) (f : Fd)
    (ha : w.op f = true → Allowed op0 fromcert rep0 w.log (.close f)) : WInv op0 fromcert rep0 (w.close f) := by
  by_cases hc : w.op f = true
  · obtain ⟨i1, i2, i3, i4, i5, i6⟩ := h
    rw [Clear.close_open _ _ hc]
    refine ⟨?_, ?_, ?_, ?_, ?_, ?_⟩
    · exact (always_snoc _ _ _).mpr ⟨i1, ha hc⟩
    · intro g
      simp only
      rw [closed_snoc]
      by_cases hg : g = f
      · simp [hg]
      · have : f ≠ g := fun h => hg h.symm
        simp [hg, i2, this]
    all_goals simp only [wroteOf_append, readOf_append, tookApp_append, tookRec_append, gaveApp_append, gaveRec_append,
      wroteOf_one, readOf_one, tookApp_one, tookRec_one, gaveApp_one, gaveRec_one, i3, i4, i5, i6]
    all_goals simp [Act.wroteOn, Act.readOn, tookApp1, tookRec1, gaveApp1, gaveRec1]
  · rw [Clear.close_shut _ _ (by simpa using hc)]; exact h

theorem close_users (w : W) (f : Fd) : users (w.close f).log = users w.log := by
  unfold W.close; split <;> simp [users_append, users_one, user1]
theorem close_last (w : W) (f : Fd) : lastState (w.close f).log = lastState w.log := by
  unfold W.close; split <;> simp [lastState_snoc, lastState1]
theorem close_ordered (w : W) (f : Fd) : Ordered (w.close f).log ↔ Ordered w.log := by
  unfold W.close; split <;> simp [ordered_snoc]
theorem close_canSend (w : W) (f : Fd) : CanSend (w.close f).log ↔ CanSend w.log := by
  unfold W.close; split <;> simp [canSend_snoc]
theorem close_op_mono (w : W) (f g : Fd) (h : w.op g = false) : (w.close f).op g = false := by
  unfold W.close; split <;> simp [h]
theorem close_op_self (w : W) (f : Fd) : (w.close f).op f = false := by
  unfold W.close; split
  · simp
  · rename_i h; simpa using h
theorem close_op_ne (w : W) (f g : Fd) (h : g ≠ f) : (w.close f).op g = w.op g := by
  unfold W.close; split <;> simp [h]
theorem close_mem (w : W) (f : Fd) (a : Act Fd) (h : a ∈ w.log) : a ∈ (w.close f).log := by
  unfold W.close; split <;> simp [h]

theorem last_mem {log : List (Act Fd)} {st : Flags} (h : lastState log = some st) : Act.eng (.state st) ∈ log := by
  revert h
  refine snoc_ind (P := fun log => lastState log = some st → Act.eng (.state st) ∈ log) ?_ ?_ log
  · simp [lastState]
  · intro l a ih h
    rw [lastState_snoc] at h
    unfold lastState1 at h
    split at h
    · simp at h; simp [h]
    · simp [ih h]

theorem ordered_last {log : List (Act Fd)} {st : Flags} (ho : Ordered log) (h : lastState log = some st)
    (hr : st.recvapp = true) : CanSend log := by
  revert h ho
  refine snoc_ind (P := fun log => Ordered log → lastState log = some st → CanSend log) ?_ ?_ log
  · simp [lastState]
  · intro l a ih ho h
    rw [lastState_snoc] at h
    rw [ordered_snoc] at ho
    rw [canSend_snoc]
    unfold lastState1 at h
    split at h
    · simp at h
      subst h
      rcases ho.2 _ rfl hr with h | h
      · exact .inr ⟨_, rfl, h⟩
      · exact .inl h
    · exact .inl (ih ho.1 h)

variable {E : Type} {g : Engine E}

/-- The bookkeeping of the account record. -/
structure UInv (fromcert rep0 : Bool) (w : W) (hs rep : Bool) : Prop where
  u1 : rep = (rep0 || hs)
  u2 : hs = false → users w.log = []
  u3 : rep0 = true → users w.log = []
  u4 : rep0 = false → hs = true → ∃ d, users w.log = [d] ∧ Record fromcert d

/-- Between iterations. -/
structure Inv (op0 : Fd → Bool) (fromcert rep0 : Bool) (N C : Bytes) (s : St E) : Prop where
  wi : WInv op0 fromcert rep0 s.w
  ui : UInv fromcert rep0 s.w s.hs s.rep
  v2 : CanSend s.w.log → s.hs = true ∨ s.w.op .childin = false
  n1 : readOf .peerin s.w.log ++ s.net = N
  n2 : readOf .childout s.w.log ++ s.chd = C

/-- After the top part of an iteration that ended with engine state `st`. -/
structure Mid (op0 : Fd → Bool) (fromcert rep0 : Bool) (N C : Bytes) (st : Flags) (s : St E) : Prop where
  wi : WInv op0 fromcert rep0 s.w
  ui : UInv fromcert rep0 s.w s.hs s.rep
  ls : lastState s.w.log = some st
  v2 : CanSend s.w.log → s.hs = true ∨ st.sendapp = true ∨ s.w.op .childin = false
  n1 : readOf .peerin s.w.log ++ s.net = N
  n2 : readOf .childout s.w.log ++ s.chd = C

/-- An action that is not a transfer, a close or a record. -/
def Plain (a : Act Fd) : Prop :=
  (∃ b, a = .alarm b) ∨ (∃ c, a = .sig c) ∨ (∃ f, a = .ended f) ∨ (∃ f, a = .failed f) ∨ a = .eng .flush ∨ a = .eng .close ∨
  (∃ st, a = .eng (.state st)) ∨ (∃ l, a = .eng (.wait l))

theorem plain_facts {a : Act Fd} (h : Plain a) : (∀ f, a ≠ .close f) ∧ (∀ f, a.wroteOn f = []) ∧
    (∀ f, a.readOn f = []) ∧ tookApp1 a = [] ∧ tookRec1 a = [] ∧ gaveApp1 a = [] ∧ gaveRec1 a = [] ∧ user1 a = [] := by
  rcases h with ⟨_, rfl⟩ | ⟨_, rfl⟩ | ⟨_, rfl⟩ | ⟨_, rfl⟩ | rfl | rfl | ⟨_, rfl⟩ | ⟨_, rfl⟩ <;>
    simp [Act.wroteOn, Act.readOn, tookApp1, tookRec1, gaveApp1, gaveRec1, user1]

theorem winv_plain {op0 : Fd → Bool} {fromcert rep0 : Bool} {w : W} (h : WInv op0 fromcert rep0 w) {a : Act Fd}
    (hp : Plain a) (ha : Allowed op0 fromcert rep0 w.log a) : WInv op0 fromcert rep0 (w.act a) := by
  obtain ⟨p1, p2, p3, p4, p5, p6, p7, _⟩ := plain_facts hp
  exact winv_act h a ha p1 (by rw [p2, p4]) (by rw [p2, p5]) (by rw [p3, p6]) (by rw [p3, p7])

theorem plain_log {w : W} {a : Act Fd} (hp : Plain a) : users (w.act a).log = users w.log ∧
    (∀ f, readOf f (w.act a).log = readOf f w.log) := by
  obtain ⟨p1, p2, p3, p4, p5, p6, p7, p8⟩ := plain_facts hp
  refine ⟨?_, fun f => ?_⟩
  · show users (w.log ++ [a]) = _
    simp [users_append, users_one, p8]
  · show readOf f (w.log ++ [a]) = _
    simp [readOf_append, readOf_one, p3]

theorem close_read (w : W) (f g : Fd) : readOf g (w.close f).log = readOf g w.log := by
  unfold W.close; split <;> simp [readOf_append, readOf_one, Act.readOn]

theorem uinv_of {fromcert rep0 : Bool} {w w' : W} {hs rep : Bool} (h : UInv fromcert rep0 w hs rep)
    (e : users w'.log = users w.log) : UInv fromcert rep0 w' hs rep := by
  obtain ⟨a, b, c, d⟩ := h
  exact ⟨a, by rwa [e], by rwa [e], by rwa [e]⟩

/-! ### The top part -/

theorem allowed_plain {op0 : Fd → Bool} {fromcert rep0 : Bool} {pre : List (Act Fd)} {a : Act Fd}
    (h : (∃ b, a = .alarm b) ∨ (∃ c, a = .sig c) ∨ a = .eng .flush ∨ ∃ st, a = .eng (.state st)) : Allowed op0 fromcert rep0 pre a := by
  rcases h with ⟨_, rfl⟩ | ⟨_, rfl⟩ | rfl | ⟨_, rfl⟩ <;> simp [Allowed, Act.on]

theorem inv_look {op0 : Fd → Bool} {fromcert rep0 : Bool} {N C : Bytes} {s : St E} (h : Inv op0 fromcert rep0 N C s) :
    Mid op0 fromcert rep0 N C (look g s).1 (look g s).2 := by
  obtain ⟨i1, i2, i3, i4, i5⟩ := h
  have hp : Plain (.eng (.state (g.state s.e))) := by simp [Plain]
  unfold look
  obtain ⟨q1, q2⟩ := plain_log (w := s.w) hp
  refine ⟨winv_plain i1 hp (allowed_plain (by simp)), uinv_of i2 q1, ?_, ?_, ?_, ?_⟩
  · simp [Clear.act_log, lastState_snoc, lastState1]
  · simp only [Clear.act_log, canSend_snoc, Clear.act_op]
    grind
  · simp only [q2]; exact i4
  · simp only [q2]; exact i5

theorem mid_close {op0 : Fd → Bool} {fromcert rep0 : Bool} {N C : Bytes} {st : Flags} {s : St E}
    (h : Mid op0 fromcert rep0 N C st s) (f : Fd) (ha : s.w.op f = true → Allowed op0 fromcert rep0 s.w.log (.close f)) :
    Mid op0 fromcert rep0 N C st { s with w := s.w.close f } := by
  obtain ⟨i1, i2, i3, i4, i5, i6⟩ := h
  refine ⟨winv_close i1 f ha, uinv_of i2 (close_users _ _), ?_, ?_, ?_, ?_⟩
  · simp only [close_last]; exact i3
  · simp only [close_canSend]
    intro hc
    rcases i4 hc with h | h | h
    · exact .inl h
    · exact .inr (.inl h)
    · exact .inr (.inr (close_op_mono _ _ _ h))
  · simp only [close_read]; exact i5
  · simp only [close_read]; exact i6

theorem mid_closes {op0 : Fd → Bool} {fromcert rep0 : Bool} {N C : Bytes} {st : Flags} {s : St E} (pend : Bool)
    (h : Mid op0 fromcert rep0 N C st s) : Mid op0 fromcert rep0 N C st { s with w := closes st pend s.w } := by
  have key : ∀ (P : W → Prop) [∀ w, Decidable (P w)] (f : Fd) (s : St E), Mid op0 fromcert rep0 N C st s →
      (P s.w → s.w.op f = true → Allowed op0 fromcert rep0 s.w.log (.close f)) →
      Mid op0 fromcert rep0 N C st { s with w := if P s.w then s.w.close f else s.w } := by
    intro P _ f s hm ha
    by_cases hc : P s.w
    · rw [if_pos hc]; exact mid_close hm f (ha hc)
    · rw [if_neg hc]; exact hm
  have h1 := key (fun w => w.op .peerin = false ∧ w.op .childin = true ∧ st.recvapp = false) .childin s h (by
    intro hc ho
    have := h.wi.cl; have := h.ls
    grind [Allowed, Act.on])
  have h2 := key (fun w => w.op .childout = false ∧ w.op .childin = true ∧ st.recvapp = false ∧
      ¬ (w.op .peerin = true ∧ pend = true)) .childin _ h1 (by
    intro hc ho
    have := h1.wi.cl; have := h1.ls
    grind [Allowed, Act.on])
  exact key (fun w => w.op .childout = false ∧ w.op .peerout = true ∧ st.closed = true ∧ st.sendrec = false) .peerout
    _ h2 (by
    intro hc ho
    have := h2.wi.cl; have := h2.ls
    grind [Allowed, Act.on])

theorem mid_shutdown {op0 : Fd → Bool} {fromcert rep0 : Bool} {N C : Bytes} {st : Flags} {s : St E}
    (h : Mid op0 fromcert rep0 N C st s) :
    Mid op0 fromcert rep0 N C (shutdown g st s).1 (shutdown g st s).2 := by
  unfold shutdown
  by_cases hc : s.w.op .childout = false ∧ s.w.op .childin = false ∧ st.closed = false
  · rw [if_pos hc]
    refine inv_look ?_
    obtain ⟨i1, i2, i3, i4, i5, i6⟩ := h
    have p1 : Plain (.eng .close) := by simp [Plain]
    have p2 : Plain (.eng .flush) := by simp [Plain]
    obtain ⟨q1, q2⟩ := plain_log (w := s.w) p1
    obtain ⟨q3, q4⟩ := plain_log (w := s.w.act (.eng .close)) p2
    refine ⟨winv_plain (winv_plain i1 p1 ?_) p2 (allowed_plain (by simp)), uinv_of i2 (by rw [q3, q1]), ?_, ?_, ?_⟩
    · have := i1.cl
      grind [Allowed, Act.on]
    · exact fun _ => .inr hc.2.1
    · simp only [q4, q2]; exact i5
    · simp only [q4, q2]; exact i6
  · rw [if_neg hc]; exact h

theorem mid_top {op0 : Fd → Bool} {fromcert rep0 : Bool} {N C : Bytes} {s : St E} (pend : Bool)
    (h : Inv op0 fromcert rep0 N C s) : Mid op0 fromcert rep0 N C (top g s pend).1 (top g s pend).2 :=
  mid_shutdown (mid_closes pend (inv_look h))

/-! ### The handshake report -/

theorem pipe_write_result {fd fd' : WFd} {m : Bytes} {r : Int} (h : Pipe.pipe_write fd m = some (r, fd')) :
    r = 0 ∨ r = -1 := by
  unfold Pipe.pipe_write at h
  cases h1 : Rw.writeall fd (Pipe.uint64_pack m.length) with
  | none => simp [h1] at h
  | some v =>
    simp only [h1, Option.bind_eq_bind, Option.bind_some] at h
    split at h
    · simp at h; exact .inr h.1.symm
    · cases h2 : Rw.writeall v.2 m with
      | none => simp [h2] at h
      | some v =>
        simp only [h2, Option.bind_some] at h
        split at h
        · simp at h; exact .inr h.1.symm
        · simp at h; exact .inl h.1.symm

theorem cstr_of (l : Bytes) : ∃ rest, l ++ [0] = cstr (l.takeWhile (· != 0)) rest ∧ NoNul (l.takeWhile (· != 0)) := by
  induction l with
  | nil => exact ⟨[], rfl, by simp [NoNul]⟩
  | cons b l ih =>
    obtain ⟨rest, e, hn⟩ := ih
    by_cases hb : b = 0
    · subst hb; exact ⟨l ++ [0], by simp [cstr], by simp [NoNul]⟩
    · refine ⟨rest, ?_, ?_⟩
      · simp [hb, e, cstr]
      · rw [List.takeWhile_cons_of_pos (by simpa using hb)]
        intro x hx
        simp only [List.mem_cons] at hx
        rcases hx with rfl | hx
        · exact hb
        · exact hn x hx

theorem takeWhile_len {α : Type} (p : α → Bool) (l : List α) : (l.takeWhile p).length ≤ l.length := by
  induction l with
  | nil => simp
  | cons a l ih => rw [List.takeWhile_cons]; split <;> simp <;> omega

theorem takeWhile_all {α : Type} (p : α → Bool) (l : List α) : ∀ x ∈ l.takeWhile p, p x = true ∧ x ∈ l := by
  induction l with
  | nil => simp
  | cons a l ih =>
    rw [List.takeWhile_cons]
    split
    · intro x hx
      simp only [List.mem_cons] at hx
      rcases hx with rfl | hx
      · exact ⟨‹_›, by simp⟩
      · exact ⟨(ih x hx).1, by simp [(ih x hx).2]⟩
    · simp

theorem account_facts (fromcert : Bool) (buf : Bytes) : NoNul (account fromcert buf) ∧
    (fromcert = true → c! '@' ∉ account fromcert buf) ∧ (account fromcert buf).length ≤ 255 := by
  have h1 := takeWhile_all (· != (0 : Byte)) (buf.take 255)
  have h2 := takeWhile_len (· != (0 : Byte)) (buf.take 255)
  have h3 := takeWhile_all (· != c! '@') ((buf.take 255).takeWhile (· != 0))
  have h4 := takeWhile_len (· != c! '@') ((buf.take 255).takeWhile (· != 0))
  have h5 : (buf.take 255).length ≤ 255 := by simp; omega
  unfold account NoNul
  cases fromcert
  · simp only [Bool.false_eq_true, ↓reduceIte]
    exact ⟨fun b hb => by simpa using (h1 b hb).1, by simp, Nat.le_trans h2 h5⟩
  · simp only [↓reduceIte, forall_const]
    refine ⟨fun b hb => by simpa using (h1 b (h3 b hb).2).1, fun hh => ?_, Nat.le_trans h4 (Nat.le_trans h2 h5)⟩
    simpa using (h3 _ hh).1

/-- What the buffer holds when the record is made from it. -/
theorem prepared (fromcert : Bool) (buf : Bytes) (hb : buf.length = 256) :
    ∃ rest, nameBuf fromcert buf = .ok (cstr (account fromcert buf) rest) := by
  unfold nameBuf
  rw [copyN_full _ _ _ _ (by simp) (by omega)]
  have : buf.drop (255 + 1) = [] := List.drop_eq_nil_of_le (by omega)
  obtain ⟨rest, e, hn⟩ := cstr_of (buf.take 255)
  simp only [this, List.append_nil, show ([0] : Bytes).take 1 = [0] from rfl, e]
  cases fromcert
  · exact ⟨rest, by simp [account]⟩
  · obtain ⟨rest', e', -⟩ := Path.c12_prefix _ rest hn
    refine ⟨rest', ?_⟩
    simp only [account, ↓reduceIte]
    exact e'

/-- Everything that the handshake report can do. -/
theorem report_cases (fromcert : Bool) (st : Flags) (s : St E) (evs : List WrEv) (hlen : (g.crt s.e).2.length = 256) :
    ∃ s' why, reportHandshake g fromcert st s evs = .ok (s', why) ∧
    ((s' = s ∧ why = none ∧ (s.hs = true ∨ st.sendapp = false)) ∨
     (s.hs = false ∧ st.sendapp = true ∧
      ((s.rep = true ∧ s' = { s with hs := true, w := s.w.act .alarm } ∧ why = none) ∨
       (s.rep = false ∧
        ((s' = { s with hs := true } ∧ (why = some .noName ∧ fromcert = true ∧ (g.crt s.e).1 = 0 ∨
            why = some .userFailed ∨ why = some .userBlocked)) ∨
         (s.w.op .childin = true ∧ ¬ (fromcert = true ∧ (g.crt s.e).1 = 0) ∧
          ∃ d, (s' = { s with hs := true, w := s.w.act (.eng (.user d)) } ∧ why = some .userFailed) ∨
            (s' = { s with hs := true, rep := true, w := (s.w.act (.eng (.user d))).act .alarm } ∧ why = none ∧
              Pipe.Spec.Frame d (account fromcert (g.crt s.e).2 ++ [0])))))))) := by
  obtain ⟨w, e, hs, rep, net, chd⟩ := s
  cases hs with
  | true => exact ⟨_, _, rfl, .inl ⟨rfl, rfl, .inl rfl⟩⟩
  | false =>
    unfold reportHandshake
    cases st.sendapp with
    | false => exact ⟨_, _, rfl, .inl ⟨rfl, rfl, .inr rfl⟩⟩
    | true =>
      cases rep with
      | true => exact ⟨_, _, rfl, .inr ⟨rfl, rfl, .inl ⟨rfl, rfl, rfl⟩⟩⟩
      | false =>
        obtain ⟨rest, hp⟩ := prepared fromcert _ hlen
        simp only at hlen hp
        simp only [Bool.false_eq_true, ↓reduceIte, Bool.not_true]
        by_cases hn : (fromcert && (g.crt e).1 == 0) = true
        · rw [if_pos hn]
          simp at hn
          exact ⟨_, _, rfl, .inr ⟨trivial, trivial, .inr ⟨trivial, .inl ⟨rfl, .inl ⟨rfl, hn⟩⟩⟩⟩⟩
        · rw [if_neg hn, hp]
          simp at hn
          have hacc := account_facts fromcert (g.crt e).2
          have hcs : (cstr (account fromcert (g.crt e).2) rest).take ((account fromcert (g.crt e).2).length + 1) =
              account fromcert (g.crt e).2 ++ [0] := by
            rw [cstr, List.take_append, List.take_of_length_le (by omega)]
            simp
          simp only [reportUser, Out.ok_bind, Str.str_len_ok _ _ hacc.1]
          by_cases hop : w.op .childin = false
          · rw [if_pos hop]
            exact ⟨_, _, rfl, .inr ⟨trivial, trivial, .inr ⟨trivial, .inl ⟨rfl, .inr (.inl rfl)⟩⟩⟩⟩
          · rw [if_neg hop, hcs]
            have hop : w.op .childin = true := by simpa using hop
            cases hw : Pipe.pipe_write ⟨[], evs⟩ (account fromcert (g.crt e).2 ++ [0]) with
            | none => exact ⟨_, _, rfl, .inr ⟨trivial, trivial, .inr ⟨trivial, .inl ⟨rfl, .inr (.inr rfl)⟩⟩⟩⟩
            | some v =>
              obtain ⟨r, fd⟩ := v
              rcases pipe_write_result hw with rfl | rfl
              · obtain ⟨f, hf, e⟩ := Pipe.c17_write _ _ _ (by simp; omega) hw
                simp only [List.nil_append] at e
                refine ⟨_, _, rfl, .inr ⟨trivial, trivial, .inr ⟨trivial, .inr ⟨hop, ?_, fd.out, .inr ⟨rfl, rfl, ?_⟩⟩⟩⟩⟩
                · rintro ⟨a, b⟩; exact hn a b
                · rw [e]; exact hf
              · refine ⟨_, _, rfl, .inr ⟨trivial, trivial, .inr ⟨trivial, .inr ⟨hop, ?_, fd.out, .inl ⟨rfl, rfl⟩⟩⟩⟩⟩
                rintro ⟨a, b⟩; exact hn a b

/-- A record whose writing failed is not complete. -/
theorem report_part {fromcert : Bool} {st : Flags} {s : St E} {evs : List WrEv} {d : Bytes} {s' : St E}
    (hlen : (g.crt s.e).2.length = 256) (h : reportHandshake g fromcert st s evs = .ok (s', some .userFailed))
    (hl : s'.w.log = s.w.log ++ [.eng (.user d)]) : ∃ x m, Pipe.Spec.Frame (d ++ x) m ∧ x ≠ [] := by
  have hne : s'.w.log ≠ s.w.log := by rw [hl]; simp
  unfold reportHandshake at h
  split at h
  · cases h
  split at h
  · cases h
  simp only at h
  split at h
  · cases h
  split at h
  · cases h
  obtain ⟨rest, hp⟩ := prepared fromcert _ hlen
  rw [hp] at h
  have hacc := account_facts fromcert (g.crt s.e).2
  have hcs : (cstr (account fromcert (g.crt s.e).2) rest).take ((account fromcert (g.crt s.e).2).length + 1) =
      account fromcert (g.crt s.e).2 ++ [0] := by
    rw [cstr, List.take_append, List.take_of_length_le (by omega)]
    simp
  simp only [reportUser, Out.ok_bind, Str.str_len_ok _ _ hacc.1, hcs] at h
  split at h
  · cases h; exact absurd rfl hne
  cases hw : Pipe.pipe_write ⟨[], evs⟩ (account fromcert (g.crt s.e).2 ++ [0]) with
  | none => rw [hw] at h; cases h
  | some v =>
    obtain ⟨r, fd⟩ := v
    rw [hw] at h
    obtain ⟨-, f, p, hf, ⟨x, rfl⟩, e, hr⟩ := Pipe.c17_write_fails _ _ _ _ (by simp; omega) hw
    simp only at h
    split at h
    · rename_i hr1
      cases h
      simp only [Clear.act_log, List.append_cancel_left_eq, List.cons.injEq, Act.eng.injEq, EngAct.user.injEq, and_true] at hl
      simp only [List.nil_append] at e
      rw [← hl, e]
      refine ⟨x, _, hf, ?_⟩
      rintro rfl
      have := hr.mpr (by simp)
      omega
    · cases h

/-! ### Transfers -/

theorem tryWrite_cases (buf : Bytes) (ev : WrEv) : tryWrite buf ev = .again ∨ tryWrite buf ev = .failed ∨
    ∃ n, 0 < n ∧ n ≤ buf.length ∧ tryWrite buf ev = .put (buf.take n) := by
  cases ev with
  | zero => exact .inr (.inl rfl)
  | eintr p => exact .inl rfl
  | eagain p => exact .inl rfl
  | err e => exact .inr (.inl rfl)
  | data m =>
    unfold tryWrite
    by_cases h : (put buf (cap buf.length) m).length = 0
    · simp only [if_pos h]; exact .inr (.inl trivial)
    · simp only [if_neg h]
      refine .inr (.inr ⟨min (cap buf.length) (m + 1), ?_, ?_, rfl⟩)
      · simp [put] at h ⊢
        simp [cap] at h ⊢
        cases buf with
        | nil => simp at h
        | cons b l => simp; omega
      · simp [cap]; omega

theorem tryRead_cases (len : Nat) (src : Bytes) (ev : RdEv) : tryRead len src ev = .again ∨ tryRead len src ev = .ended ∨
    ∃ d, d ≠ [] ∧ d.length ≤ len ∧ src = d ++ src.drop d.length ∧ tryRead len src ev = .got d := by
  cases ev with
  | eintr => exact .inl rfl
  | eagain => exact .inl rfl
  | err e => exact .inr (.inl rfl)
  | data m =>
    unfold tryRead
    by_cases h : (got src (cap len) m).length = 0
    · simp only [if_pos h]; exact .inr (.inl trivial)
    · simp only [if_neg h]
      refine .inr (.inr ⟨_, fun e => h (by simp [e]), ?_, ?_, rfl⟩)
      · simp [got, cap]; omega
      · simp only [got, List.length_take]
        generalize min (cap len) (m + 1) = k
        rcases Nat.le_total k src.length with h | h
        · rw [Nat.min_eq_left h, List.take_append_drop]
        · rw [Nat.min_eq_right h, List.drop_length, List.take_of_length_le h, List.append_nil]

/-- No account record has been written, or the last thing written is a first part of one. -/
def Unsent (log : List (Act Fd)) : Prop :=
  users log = [] ∨ ∃ q d x m, log = q ++ [.eng (.user d)] ∧ users q = [] ∧ Pipe.Spec.Frame (d ++ x) m ∧ x ≠ []

/-- What a step leaves behind; `evs`: the answers so far. -/
structure Fin (op0 : Fd → Bool) (fromcert rep0 : Bool) (N C : Bytes) (evs : List Ev) (s : St E) (why : Option Why) :
    Prop where
  wi : WInv op0 fromcert rep0 s.w
  n1 : readOf .peerin s.w.log ++ s.net = N
  n2 : readOf .childout s.w.log ++ s.chd = C
  us : (users s.w.log).length ≤ 1 ∧ (rep0 = true → users s.w.log = [])
  go : why = none → Inv op0 fromcert rep0 N C s
  r0 : why = none ∨ why = some .closed ∨ why = some .noProgress ∨ why = some .childWrite ∨ why = some .peerWrite ∨
    why = some .signal ∨ why = some .handshakeFailed → Inv op0 fromcert rep0 N C s
  r1 : why = some .handshakeFailed → ∃ st, lastState s.w.log = some st ∧ st.closed = true ∧ users s.w.log = []
  r2 : why = some .closed → ∃ st, lastState s.w.log = some st ∧ st.closed = true ∧ st.sendrec = false
  r3 : why = some .noProgress → ∃ st, lastState s.w.log = some st ∧ ∀ f, ¬ Wanted op0 s.w.log st f
  r4 : why = some .childWrite → ∃ q, s.w.log = q ++ [.failed .childin, .close .childin]
  r5 : why = some .peerWrite → ∃ q, s.w.log = q ++ [.failed .peerout, .close .peerout]
  r6 : why = some .signal → (∃ ev ∈ evs, ev.sig = .failed) ∨ ∃ q c, s.w.log = q ++ [.sig c] ∧ c ≠ c! 'C' ∧
    (c = c! 'A' → ∀ f, f = .childin ∨ f = .childout ∨ f = .ctl ∨ f = .ack → Closed op0 s.w.log f)
  r7 : why = some .noName → fromcert = true ∧ users s.w.log = []
  r8 : why = some .noName ∨ why = some .userFailed ∨ why = some .userBlocked → rep0 = false ∧ Unsent s.w.log

theorem inv_users {fromcert rep0 : Bool} {w : W} {hs rep : Bool}
    (h : UInv fromcert rep0 w hs rep) : (users w.log).length ≤ 1 ∧ (rep0 = true → users w.log = []) := by
  obtain ⟨a, b, c, d⟩ := h
  refine ⟨?_, c⟩
  cases hs with
  | false => simp [b rfl]
  | true =>
    cases rep0 with
    | true => simp [c rfl]
    | false => obtain ⟨d, e, -⟩ := d rfl rfl; simp [e]

theorem fin_none {op0 : Fd → Bool} {fromcert rep0 : Bool} {N C : Bytes} {evs : List Ev} {s : St E}
    (h : Inv op0 fromcert rep0 N C s) : Fin op0 fromcert rep0 N C evs s none :=
  ⟨h.wi, h.n1, h.n2, inv_users h.ui, fun _ => h, fun _ => h, by simp, by simp, by simp, by simp, by simp,
    by simp, by simp, by simp⟩

theorem inv_plain {op0 : Fd → Bool} {fromcert rep0 : Bool} {N C : Bytes} {s : St E} (h : Inv op0 fromcert rep0 N C s)
    (e' : E) {a : Act Fd} (hp : Plain a) (ha : Allowed op0 fromcert rep0 s.w.log a) (hs : ∀ st, a ≠ .eng (.state st)) :
    Inv op0 fromcert rep0 N C { s with e := e', w := s.w.act a } := by
  obtain ⟨i1, i2, i3, i4, i5⟩ := h
  obtain ⟨q1, q2⟩ := plain_log (w := s.w) hp
  refine ⟨winv_plain i1 hp ha, uinv_of i2 q1, ?_, ?_, ?_⟩
  · simp only [Clear.act_log, Clear.act_op, canSend_snoc]
    rintro (hh | ⟨st, hh, -⟩)
    · exact i3 hh
    · exact absurd hh (hs st)
  · simp only [q2]; exact i4
  · simp only [q2]; exact i5

theorem inv_act2 {op0 : Fd → Bool} {fromcert rep0 : Bool} {N C : Bytes} {s : St E} (h : Inv op0 fromcert rep0 N C s)
    (e' : E) (net' chd' : Bytes) (a b : Act Fd)
    (ha : Allowed op0 fromcert rep0 s.w.log a) (hb : Allowed op0 fromcert rep0 (s.w.log ++ [a]) b)
    (hc : ∀ f, a ≠ .close f ∧ b ≠ .close f)
    (h1 : a.wroteOn .childin ++ b.wroteOn .childin = tookApp1 a ++ tookApp1 b)
    (h2 : a.wroteOn .peerout ++ b.wroteOn .peerout = tookRec1 a ++ tookRec1 b)
    (h3 : a.readOn .childout ++ b.readOn .childout = gaveApp1 a ++ gaveApp1 b)
    (h4 : a.readOn .peerin ++ b.readOn .peerin = gaveRec1 a ++ gaveRec1 b)
    (hu : user1 a = [] ∧ user1 b = []) (hs : ∀ st, a ≠ .eng (.state st) ∧ b ≠ .eng (.state st))
    (hn : s.net = a.readOn .peerin ++ b.readOn .peerin ++ net')
    (hd : s.chd = a.readOn .childout ++ b.readOn .childout ++ chd') :
    Inv op0 fromcert rep0 N C { s with e := e', net := net', chd := chd', w := (s.w.act a).act b } := by
  obtain ⟨i1, i2, i3, i4, i5⟩ := h
  have e : ((s.w.act a).act b).log = s.w.log ++ [a] ++ [b] := rfl
  refine ⟨winv_act2 i1 a b ha hb hc h1 h2 h3 h4, uinv_of i2 ?_, ?_, ?_, ?_⟩
  · rw [e]; simp only [users_append, users_one, hu, List.append_nil]
  · simp only [e, canSend_snoc]
    rintro ((hh | ⟨st, hh, -⟩) | ⟨st, hh, -⟩)
    · exact i3 hh
    · exact absurd hh (hs st).1
    · exact absurd hh (hs st).2
  · simp only [e, readOf_append, readOf_one]
    rw [← i4, hn]; simp only [List.append_assoc]
  · simp only [e, readOf_append, readOf_one]
    rw [← i5, hd]; simp only [List.append_assoc]

theorem not_closed {op0 : Fd → Bool} {fromcert rep0 : Bool} {w : W} (h : WInv op0 fromcert rep0 w) {f : Fd} (ho : w.op f = true) :
    ¬ Closed op0 w.log f := fun hh => by
  have := (h.cl f).mpr hh; simp [ho] at this

/-- A failed write: close and stop. -/
theorem fin_failed {op0 : Fd → Bool} {fromcert rep0 : Bool} {N C : Bytes} {evs : List Ev} {s : St E} {f : Fd} {y : Why}
    (h : Inv op0 fromcert rep0 N C s) (hf : (f = .childin ∧ y = .childWrite) ∨ (f = .peerout ∧ y = .peerWrite))
    (hw : Waited s.w.log f) (ho : s.w.op f = true) :
    Fin op0 fromcert rep0 N C evs { s with w := (s.w.act (.failed f)).close f } (some y) := by
  have hnc := not_closed h.wi ho
  have hp : Plain (.failed f) := by simp [Plain]
  obtain ⟨q1, q2⟩ := plain_log (w := s.w) hp
  have w1 := winv_plain h.wi hp (by grind [Allowed, Act.on])
  have hu := uinv_of (w' := (s.w.act (.failed f)).close f) h.ui (by rw [close_users, q1])
  have e : ((s.w.act (.failed f)).close f).log = s.w.log ++ [.failed f, .close f] := by
    rw [Clear.close_open _ _ (by simpa [Clear.act_op] using ho)]
    simp [Clear.act_log]
  have hi : Inv op0 fromcert rep0 N C { s with w := (s.w.act (.failed f)).close f } := by
    refine ⟨winv_close w1 _ ?_, hu, ?_, ?_, ?_⟩
    · intro _
      simp only [Clear.act_log]
      grind [Allowed, Act.on, closed_snoc]
    · simp only [close_canSend, Clear.act_log, canSend_snoc]
      intro hh
      rcases h.v2 (by simpa using hh) with h | h
      · exact .inl h
      · exact .inr (close_op_mono _ _ _ h)
    · simp only [close_read, q2]; exact h.n1
    · simp only [close_read, q2]; exact h.n2
  refine ⟨hi.wi, hi.n1, hi.n2, inv_users hu, by simp, fun _ => hi, ?_, ?_, ?_, ?_, ?_, ?_, ?_, ?_⟩
  all_goals rcases hf with ⟨rfl, rfl⟩ | ⟨rfl, rfl⟩ <;> simp
  · exact ⟨_, e⟩
  · exact ⟨_, e⟩

/-- The end of an input: close and go on. -/
theorem inv_ended {op0 : Fd → Bool} {fromcert rep0 : Bool} {N C : Bytes} {s : St E} {f : Fd}
    (h : Inv op0 fromcert rep0 N C s) (hf : f = .childout ∨ f = .peerin)
    (hw : Waited s.w.log f) (ho : s.w.op f = true) :
    Inv op0 fromcert rep0 N C { s with w := (s.w.act (.ended f)).close f } := by
  have hnc := not_closed h.wi ho
  have hp : Plain (.ended f) := by simp [Plain]
  obtain ⟨i1, i2, i3, i4, i5⟩ := inv_plain h s.e hp (by grind [Allowed, Act.on]) (by simp)
  simp only at i1 i2 i3 i4 i5
  refine ⟨winv_close i1 _ ?_, uinv_of i2 (close_users _ _), ?_, ?_, ?_⟩
  · intro _
    simp only [Clear.act_log]
    grind [Allowed, Act.on, closed_snoc]
  · simp only [close_canSend]
    intro hh
    rcases i3 hh with h | h
    · exact .inl h
    · exact .inr (close_op_mono _ _ _ h)
  · simp only [close_read]; exact i4
  · simp only [close_read]; exact i5

theorem fin_toChild {op0 : Fd → Bool} {fromcert rep0 : Bool} {N C : Bytes} {evs : List Ev} {s : St E} {st : Flags}
    (h : Inv op0 fromcert rep0 N C s) (hl : lastState s.w.log = some st) (hr : st.recvapp = true)
    (hw : Waited s.w.log .childin) (ho : s.w.op .childin = true) (ev : Ev) :
    Fin op0 fromcert rep0 N C evs (doToChild g s ev).1 (doToChild g s ev).2 := by
  have hnc := not_closed h.wi ho
  unfold doToChild
  rcases tryWrite_cases (g.recvapp s.e) ev.wr with e | e | ⟨n, h0, h1, e⟩ <;> rw [e]
  · exact fin_none h
  · exact fin_failed h (.inl ⟨rfl, rfl⟩) hw ho
  · have hlen : ((g.recvapp s.e).take n).length = n := by simp; omega
    have hne : (g.recvapp s.e).take n ≠ [] := by intro hh; rw [hh] at hlen; simp at hlen; omega
    simp only [hlen]
    refine fin_none (inv_act2 h _ s.net s.chd _ _ ?_ ?_ ?_ ?_ ?_ ?_ ?_ ?_ ?_ ?_ ?_)
    · refine ⟨?_, hne, hw, h.wi.b1, ?_⟩
      · intro f hf; simp [Act.on] at hf; rw [← hf]; exact hnc
      · intro hr0 hord
        rcases h.v2 (ordered_last hord hl hr) with hh | hh
        · exact h.ui.u4 hr0 hh
        · simp [ho] at hh
    · simp [Allowed, Act.on, h0, h1]
    all_goals simp [Act.wroteOn, Act.readOn, tookApp1, tookRec1, gaveApp1, gaveRec1, user1]

theorem fin_toPeer {op0 : Fd → Bool} {fromcert rep0 : Bool} {N C : Bytes} {evs : List Ev} {s : St E}
    (h : Inv op0 fromcert rep0 N C s) (hw : Waited s.w.log .peerout) (ho : s.w.op .peerout = true) (ev : Ev) :
    Fin op0 fromcert rep0 N C evs (doToPeer g s ev).1 (doToPeer g s ev).2 := by
  have hnc := not_closed h.wi ho
  unfold doToPeer
  rcases tryWrite_cases (g.sendrec s.e) ev.wr with e | e | ⟨n, h0, h1, e⟩ <;> rw [e]
  · exact fin_none h
  · exact fin_failed h (.inr ⟨rfl, rfl⟩) hw ho
  · have hlen : ((g.sendrec s.e).take n).length = n := by simp; omega
    have hne : (g.sendrec s.e).take n ≠ [] := by intro hh; rw [hh] at hlen; simp at hlen; omega
    simp only [hlen]
    refine fin_none (inv_act2 h _ s.net s.chd _ _ ?_ ?_ ?_ ?_ ?_ ?_ ?_ ?_ ?_ ?_ ?_)
    · refine ⟨?_, hne, hw, h.wi.b2⟩
      intro f hf; simp [Act.on] at hf; rw [← hf]; exact hnc
    · simp [Allowed, Act.on, h0, h1]
    all_goals simp [Act.wroteOn, Act.readOn, tookApp1, tookRec1, gaveApp1, gaveRec1, user1]

theorem filled (mem d : Bytes) (h : d.length ≤ mem.length) :
    ∃ m, copyN mem 0 d d.length = .ok m ∧ m.take d.length = d ∧ m.length = mem.length := by
  rw [copyN_full _ _ _ _ (Nat.le_refl _) (by omega)]
  refine ⟨_, rfl, ?_, ?_⟩
  · simp
  · simp; omega

theorem fin_fromPeer {op0 : Fd → Bool} {fromcert rep0 : Bool} {N C : Bytes} {evs : List Ev} {s : St E}
    (h : Inv op0 fromcert rep0 N C s) (hw : Waited s.w.log .peerin) (ho : s.w.op .peerin = true) (ev : Ev) :
    ∃ s' why, doFromPeer g s ev = .ok (s', why) ∧ Fin op0 fromcert rep0 N C evs s' why := by
  have hnc := not_closed h.wi ho
  unfold doFromPeer
  rcases tryRead_cases (g.recvrec s.e).length s.net ev.rd with e | e | ⟨d, h0, h1, h2, e⟩ <;> rw [e]
  · exact ⟨_, _, rfl, fin_none h⟩
  · exact ⟨_, _, rfl, fin_none (inv_ended h (.inr rfl) hw ho)⟩
  · obtain ⟨m, e1, e2, e3⟩ := filled (g.recvrec s.e) d h1
    have hpos : 0 < d.length := List.length_pos_iff.mpr h0
    simp only [e1]
    refine ⟨_, _, rfl, fin_none (inv_plain (inv_act2 h s.e _ s.chd _ _ ?_ ?_ ?_ ?_ ?_ ?_ ?_ ?_ ?_ ?_ ?_) _ (by simp [Plain])
      (allowed_plain (by simp)) (by simp))⟩
    · refine ⟨?_, h0, hw, h.wi.b4⟩
      intro f hf; simp [Act.on] at hf; rw [← hf]; exact hnc
    · simp [Allowed, Act.on, hpos, e2, e3]; omega
    all_goals simp [Act.wroteOn, Act.readOn, tookApp1, tookRec1, gaveApp1, gaveRec1, user1, e2]
    exact h2

theorem fin_fromChild {op0 : Fd → Bool} {fromcert rep0 : Bool} {N C : Bytes} {evs : List Ev} {s : St E}
    (h : Inv op0 fromcert rep0 N C s) (hw : Waited s.w.log .childout) (ho : s.w.op .childout = true) (ev : Ev) :
    ∃ s' why, doFromChild g s ev = .ok (s', why) ∧ Fin op0 fromcert rep0 N C evs s' why := by
  have hnc := not_closed h.wi ho
  unfold doFromChild
  rcases tryRead_cases (g.sendapp s.e).length s.chd ev.rd with e | e | ⟨d, h0, h1, h2, e⟩ <;> rw [e]
  · exact ⟨_, _, rfl, fin_none h⟩
  · exact ⟨_, _, rfl, fin_none (inv_ended h (.inl rfl) hw ho)⟩
  · obtain ⟨m, e1, e2, e3⟩ := filled (g.sendapp s.e) d h1
    have hpos : 0 < d.length := List.length_pos_iff.mpr h0
    simp only [e1]
    refine ⟨_, _, rfl, fin_none (inv_plain (inv_plain (inv_act2 h s.e s.net _ _ _ ?_ ?_ ?_ ?_ ?_ ?_ ?_ ?_ ?_ ?_ ?_) s.e
      (by simp [Plain]) (allowed_plain (by simp)) (by simp)) _ (by simp [Plain]) (allowed_plain (by simp)) (by simp))⟩
    · refine ⟨?_, h0, hw, h.wi.b3⟩
      intro f hf; simp [Act.on] at hf; rw [← hf]; exact hnc
    · simp [Allowed, Act.on, hpos, e2, e3]; omega
    all_goals simp [Act.wroteOn, Act.readOn, tookApp1, tookRec1, gaveApp1, gaveRec1, user1, e2]
    exact h2

theorem inv_close {op0 : Fd → Bool} {fromcert rep0 : Bool} {N C : Bytes} {s : St E}
    (h : Inv op0 fromcert rep0 N C s) (f : Fd) (ha : s.w.op f = true → Allowed op0 fromcert rep0 s.w.log (.close f)) :
    Inv op0 fromcert rep0 N C { s with w := s.w.close f } := by
  obtain ⟨i1, i2, i3, i4, i5⟩ := h
  refine ⟨winv_close i1 f ha, uinv_of i2 (close_users _ _), ?_, ?_, ?_⟩
  · simp only [close_canSend]
    intro hc
    rcases i3 hc with h | h
    · exact .inl h
    · exact .inr (close_op_mono _ _ _ h)
  · simp only [close_read]; exact i4
  · simp only [close_read]; exact i5

theorem inv_alarm {b : Bool} {op0 : Fd → Bool} {fromcert rep0 : Bool} {N C : Bytes} {s : St E}
    (h : Inv op0 fromcert rep0 N C s) : Inv op0 fromcert rep0 N C { s with w := s.w.act (.alarm b) } :=
  inv_plain h s.e (by simp [Plain]) (allowed_plain (by simp)) (by simp)

theorem fin_selfpipe {op0 : Fd → Bool} {fromcert rep0 : Bool} {N C : Bytes} {evs : List Ev} {s : St E}
    (h : Inv op0 fromcert rep0 N C s) (ev : Ev) (hev : ev ∈ evs) :
    Fin op0 fromcert rep0 N C evs (doSelfpipe s ev).1 (doSelfpipe s ev).2 := by
  unfold doSelfpipe
  cases hs : ev.sig with
  | again => exact fin_none h
  | failed =>
    exact ⟨h.wi, h.n1, h.n2, inv_users h.ui, by simp [selfpipeEvent], fun _ => h, by simp [selfpipeEvent],
      by simp [selfpipeEvent], by simp [selfpipeEvent], by simp [selfpipeEvent], by simp [selfpipeEvent],
      fun _ => .inl ⟨ev, hev, hs⟩, by simp [selfpipeEvent], by simp [selfpipeEvent]⟩
  | byte c =>
    have hs := inv_plain h s.e (a := .sig c) (by simp [Plain]) (allowed_plain (by simp)) (by simp)
    have nc : ∀ (w : W), WInv op0 fromcert rep0 w → ∀ f, w.op f = true → ∀ f', (Act.close f).on = some f' → ¬ Closed op0 w.log f' := by
      intro w hw f ho f' hf
      simp [Act.on] at hf
      subst hf
      exact not_closed hw ho
    simp only
    generalize hp : selfpipeEvent s.w (.byte c) = p
    simp only [selfpipeEvent] at hp
    by_cases hC : c = c! 'C'
    · rw [if_pos hC] at hp
      subst hp
      subst hC
      refine fin_none (inv_alarm (inv_close hs .childin fun ho => ⟨nc _ hs.wi _ ho, ?_⟩))
      simp [Clear.act_log]
    · rw [if_neg hC] at hp
      by_cases hA : c = c! 'A' ∧ ((s.w.act (.sig c)).op .childin = true ∨ (s.w.act (.sig c)).op .childout = true ∨
          (s.w.act (.sig c)).op .ctl = true ∨ (s.w.act (.sig c)).op .ack = true)
      · rw [if_pos hA] at hp
        subst hp
        obtain ⟨rfl, _⟩ := hA
        have m0 : Act.sig (c! 'A') ∈ (s.w.act (.sig (c! 'A'))).log := by simp [Clear.act_log]
        have h1 := inv_close hs .childin fun ho => ⟨nc _ hs.wi _ ho, .inr (.inr (.inl m0))⟩
        have m1 := close_mem _ .childin _ m0
        have h2 := inv_close h1 .childout fun ho => ⟨nc _ h1.wi _ ho, .inr m1⟩
        have m2 := close_mem _ .childout _ m1
        have h3 := inv_close h2 .ctl fun ho => ⟨nc _ h2.wi _ ho, m2⟩
        have m3 := close_mem _ .ctl _ m2
        have h4 := inv_close h3 .ack fun ho => ⟨nc _ h3.wi _ ho, m3⟩
        exact fin_none (inv_alarm h4)
      · rw [if_neg hA] at hp
        subst hp
        refine ⟨hs.wi, hs.n1, hs.n2, inv_users hs.ui, by simp, fun _ => hs, by simp, by simp, by simp, by simp,
          by simp, fun _ => .inr ⟨s.w.log, c, rfl, hC, ?_⟩, by simp, by simp⟩
        intro hc f hf
        refine (hs.wi.cl f).mp ?_
        simp only [hc, true_and, not_or] at hA
        rcases hf with rfl | rfl | rfl | rfl <;> simp_all

/-! ### One iteration -/

theorem can_iff {op0 : Fd → Bool} {fromcert rep0 : Bool} {w : W} (h : WInv op0 fromcert rep0 w) (st : Flags) (f : Fd) :
    f ∈ watched (can st w) ↔ Wanted op0 w.log st f := by
  have hc := h.cl
  have c1 := hc .peerin
  have c2 := hc .peerout
  have c3 := hc .childin
  have c4 := hc .childout
  cases f <;> simp only [watched, can, Wanted] <;> grind

theorem watched_nil (c : Ready) (h : watched c = []) :
    c.frompeer = false ∧ c.topeer = false ∧ c.fromchild = false ∧ c.tochild = false := by
  simp only [watched, List.append_eq_nil_iff] at h
  grind

theorem inv_of_mid {op0 : Fd → Bool} {fromcert rep0 : Bool} {N C : Bytes} {st : Flags} {s : St E}
    (h : Mid op0 fromcert rep0 N C st s) (hs : s.hs = true ∨ st.sendapp = false) : Inv op0 fromcert rep0 N C s := by
  obtain ⟨i1, i2, i3, i4, i5, i6⟩ := h
  refine ⟨i1, i2, ?_, i5, i6⟩
  intro hc
  rcases i4 hc with h | h | h
  · exact .inl h
  · rcases hs with hs | hs
    · exact .inl hs
    · simp [h] at hs
  · exact .inr h

theorem fin_report {op0 : Fd → Bool} {fromcert rep0 : Bool} {N C : Bytes} {st : Flags} {s : St E} (wevs : List WrEv)
    (evs : List Ev) (hlen : (g.crt s.e).2.length = 256) (h : Mid op0 fromcert rep0 N C st s) :
    ∃ s' why, reportHandshake g fromcert st s wevs = .ok (s', why) ∧ Fin op0 fromcert rep0 N C evs s' why ∧
      (why = none → lastState s'.w.log = some st ∧ s'.w.op = s.w.op ∧ s'.e = s.e) := by
  obtain ⟨s', why, e, hh⟩ := report_cases (g := g) fromcert st s wevs hlen
  refine ⟨s', why, e, ?_⟩
  have hls := h.ls
  rcases hh with ⟨rfl, rfl, hs⟩ | ⟨hhs, hsa, ⟨hrep, rfl, rfl⟩ | ⟨hrep, ⟨rfl, hwhy⟩ | ⟨hop, hname, d, ⟨rfl, rfl⟩ | ⟨rfl, rfl, hf⟩⟩⟩⟩
  · exact ⟨fin_none (inv_of_mid h hs), fun _ => ⟨h.ls, rfl, rfl⟩⟩
  · obtain ⟨i1, i2, i3, i4, i5, i6⟩ := h
    have hr0 : rep0 = true := by have := i2.u1; simp [hrep, hhs] at this; exact this
    refine ⟨fin_none (inv_alarm (s := { s with hs := true }) ⟨i1, ⟨?_, ?_, i2.u3, ?_⟩, fun _ => .inl rfl, i5, i6⟩), fun _ => ⟨?_, rfl, rfl⟩⟩
    · simp [hrep, hr0]
    · simp
    · simp [hr0]
    · simp [Clear.act_log, lastState_snoc, lastState1, hls]
  · have h0 := h.ui.u2 hhs
    have hr0 : rep0 = false := by
      have := h.ui.u1; simp [hrep, hhs] at this; exact this
    have hne : why ≠ none ∧ (why = some .noName ∨ why = some .userFailed ∨ why = some .userBlocked) := by
      rcases hwhy with ⟨rfl, -⟩ | rfl | rfl <;> simp
    refine ⟨⟨h.wi, h.n1, h.n2, by simp [h0], fun hh => absurd hh hne.1, ?_, ?_, ?_, ?_, ?_, ?_, ?_, ?_, fun _ => ⟨hr0, .inl h0⟩⟩, fun hh => absurd hh hne.1⟩
    all_goals rcases hwhy with ⟨rfl, hf, -⟩ | rfl | rfl <;> simp
    exact ⟨hf, h0⟩
  · have h0 := h.ui.u2 hhs
    have hr0 : rep0 = false := by
      have := h.ui.u1; simp [hrep, hhs] at this; exact this
    have hal : Allowed op0 fromcert rep0 s.w.log (.eng (.user d)) :=
      ⟨by simp [Act.on], hr0, h0, ⟨st, last_mem hls, hsa⟩, not_closed h.wi hop⟩
    have hw := winv_act h.wi _ hal (by simp) rfl rfl rfl rfl
    have hu : users (s.w.act (.eng (.user d))).log = [d] := by simp [Clear.act_log, users_append, users_one, user1, h0]
    have hr : ∀ f, readOf f (s.w.act (.eng (.user d))).log = readOf f s.w.log := by
      intro f; simp [Clear.act_log, readOf_append, readOf_one, Act.readOn]
    refine ⟨⟨hw, ?_, ?_, ?_, by simp, by simp, by simp, by simp, by simp, by simp, by simp, by simp, by simp, fun _ => ⟨hr0, .inr ?_⟩⟩, by simp⟩
    · simp only [hr]; exact h.n1
    · simp only [hr]; exact h.n2
    · simp [hu, hr0]
    · obtain ⟨x, m, h1, h2⟩ := report_part hlen e rfl
      exact ⟨_, d, x, m, rfl, h0, h1, h2⟩
  · have h0 := h.ui.u2 hhs
    have hr0 : rep0 = false := by
      have := h.ui.u1; simp [hrep, hhs] at this; exact this
    have hal : Allowed op0 fromcert rep0 s.w.log (.eng (.user d)) :=
      ⟨by simp [Act.on], hr0, h0, ⟨st, last_mem hls, hsa⟩, not_closed h.wi hop⟩
    have hw := winv_act h.wi _ hal (by simp) rfl rfl rfl rfl
    have hu : users (s.w.act (.eng (.user d))).log = [d] := by simp [Clear.act_log, users_append, users_one, user1, h0]
    have hr : ∀ f, readOf f (s.w.act (.eng (.user d))).log = readOf f s.w.log := by
      intro f; simp [Clear.act_log, readOf_append, readOf_one, Act.readOn]
    obtain ⟨a1, a2, a3⟩ := account_facts fromcert (g.crt s.e).2
    refine ⟨fin_none (inv_alarm (s := { s with hs := true, rep := true, w := s.w.act (.eng (.user d)) })
      ⟨hw, ⟨?_, ?_, ?_, ?_⟩, fun _ => .inl rfl, ?_, ?_⟩), fun _ => ⟨?_, rfl, rfl⟩⟩
    · simp
    · simp
    · simp [hr0]
    · exact fun _ _ => ⟨d, hu, _, a1, a2, a3, hf⟩
    · simp only [hr]; exact h.n1
    · simp only [hr]; exact h.n2
    · show lastState (s.w.log ++ [.eng (.user d)] ++ [.alarm]) = _
      rw [lastState_snoc, lastState_snoc, hls]; rfl

theorem fin_stop {op0 : Fd → Bool} {fromcert rep0 : Bool} {N C : Bytes} {evs : List Ev} {s : St E} {y : Why}
    (h : Inv op0 fromcert rep0 N C s) (hy : y = .handshakeFailed ∨ y = .closed ∨ y = .noProgress)
    (r1 : y = .handshakeFailed → ∃ st, lastState s.w.log = some st ∧ st.closed = true ∧ users s.w.log = [])
    (r2 : y = .closed → ∃ st, lastState s.w.log = some st ∧ st.closed = true ∧ st.sendrec = false)
    (r3 : y = .noProgress → ∃ st, lastState s.w.log = some st ∧ ∀ f, ¬ Wanted op0 s.w.log st f) :
    Fin op0 fromcert rep0 N C evs s (some y) := by
  refine ⟨h.wi, h.n1, h.n2, inv_users h.ui, by simp, fun _ => h, by simpa using r1, by simpa using r2,
    by simpa using r3, ?_, ?_, ?_, ?_, ?_⟩
  all_goals rcases hy with rfl | rfl | rfl <;> simp

theorem fin_rest {op0 : Fd → Bool} {fromcert rep0 : Bool} {N C : Bytes} {st : Flags} {s : St E} {evs : List Ev} (ev : Ev)
    (hev : ev ∈ evs) (hlen : (g.crt s.e).2.length = 256) (h : Mid op0 fromcert rep0 N C st s) :
    ∃ s' why, rest g fromcert st s ev = .ok (s', why) ∧ Fin op0 fromcert rep0 N C evs s' why := by
  obtain ⟨s1, why, e, hf, hg⟩ := fin_report ev.usr evs hlen h
  unfold rest
  rw [e]
  simp only [Out.ok_bind]
  cases why with
  | some y => exact ⟨_, _, rfl, hf⟩
  | none =>
    obtain ⟨hls, hop, -⟩ := hg rfl
    have hi := hf.go rfl
    have hcan : can st s.w = can st s1.w := by unfold can; rw [hop]
    rw [hcan]
    clear hf hg e
    simp only
    by_cases h1 : (st.closed && !s1.hs) = true
    · rw [if_pos h1]
      simp at h1
      exact ⟨_, _, rfl, fin_stop hi (.inl rfl) (fun _ => ⟨st, hls, h1.1, hi.ui.u2 h1.2⟩) (by simp) (by simp)⟩
    rw [if_neg h1]
    by_cases h2 : (st.closed && !st.sendrec) = true
    · rw [if_pos h2]
      simp at h2
      exact ⟨_, _, rfl, fin_stop hi (.inr (.inl rfl)) (by simp) (fun _ => ⟨st, hls, h2⟩) (by simp)⟩
    rw [if_neg h2]
    by_cases h3 : (!(can st s1.w).frompeer && !(can st s1.w).topeer && !(can st s1.w).fromchild &&
        !(can st s1.w).tochild) = true
    · rw [if_pos h3]
      refine ⟨_, _, rfl, fin_stop hi (.inr (.inr rfl)) (by simp) (by simp) (fun _ => ⟨st, hls, fun f hf => ?_⟩)⟩
      rw [← can_iff hi.wi] at hf
      simp at h3
      simp [watched, h3] at hf
    rw [if_neg h3]
    have hne : watched (can st s1.w) ≠ [] := by
      intro hh
      obtain ⟨a, b, c, d⟩ := watched_nil _ hh
      simp [a, b, c, d] at h3
    have hi2 := inv_plain hi s1.e (a := .eng (.wait (watched (can st s1.w)))) (by simp [Plain])
      ⟨by simp [Act.on], hne, st, hls, fun f => can_iff hi.wi st f⟩ (by simp)
    have hwt : ∀ f, f ∈ watched (can st s1.w) → Waited (s1.w.act (.eng (.wait (watched (can st s1.w))))).log f :=
      fun f hf => ⟨_, by simp [Clear.act_log], hf⟩
    have hls2 : lastState (s1.w.act (.eng (.wait (watched (can st s1.w))))).log = some st := by
      simp [Clear.act_log, lastState_snoc, lastState1, hls]
    have hc : ∀ r, ((after (can st s1.w) r).tochild = true → (can st s1.w).tochild = true) ∧
        ((after (can st s1.w) r).topeer = true → (can st s1.w).topeer = true) ∧
        ((after (can st s1.w) r).frompeer = true → (can st s1.w).frompeer = true) ∧
        ((after (can st s1.w) r).fromchild = true → (can st s1.w).fromchild = true) := by
      intro r; cases r <;> simp [after] <;> grind
    obtain ⟨k1, k2, k3, k4⟩ := hc ev.poll
    unfold serve
    generalize after (can st s1.w) ev.poll = c at k1 k2 k3 k4
    by_cases c1 : c.tochild = true
    · rw [if_pos c1]
      have k := k1 c1
      have k' : st.recvapp = true ∧ s1.w.op .childin = true := by simpa [can] using k
      exact ⟨_, _, rfl, fin_toChild hi2 hls2 k'.1 (hwt _ (by simp [watched, k])) k'.2 ev⟩
    rw [if_neg c1]
    by_cases c2 : c.topeer = true
    · rw [if_pos c2]
      have k := k2 c2
      have k' : st.sendrec = true ∧ s1.w.op .peerout = true := by simpa [can] using k
      exact ⟨_, _, rfl, fin_toPeer hi2 (hwt _ (by simp [watched, k])) k'.2 ev⟩
    rw [if_neg c2]
    by_cases c3 : c.frompeer = true
    · rw [if_pos c3]
      have k := k3 c3
      have k' : s1.w.op .peerin = true := by simp [can] at k; exact k.1.2
      exact fin_fromPeer hi2 (hwt _ (by simp [watched, k])) k' ev
    rw [if_neg c3]
    by_cases c4 : c.fromchild = true
    · rw [if_pos c4]
      have k := k4 c4
      have k' : s1.w.op .childout = true := by simp [can] at k; exact k.1.2
      exact fin_fromChild hi2 (hwt _ (by simp [watched, k])) k' ev
    rw [if_neg c4]
    split
    · exact ⟨_, _, rfl, fin_selfpipe hi2 ev hev⟩
    · exact ⟨_, _, rfl, fin_none hi2⟩

theorem fin_mono {op0 : Fd → Bool} {fromcert rep0 : Bool} {N C : Bytes} {evs evs' : List Ev} {s : St E} {why : Option Why}
    (h : Fin op0 fromcert rep0 N C evs s why) (hs : ∀ ev ∈ evs, ev ∈ evs') : Fin op0 fromcert rep0 N C evs' s why := by
  obtain ⟨a, b, c, d, e, f, g, i, j, k, l, m, n, o⟩ := h
  refine ⟨a, b, c, d, e, f, g, i, j, k, l, ?_, n, o⟩
  intro hh
  rcases m hh with ⟨ev, h1, h2⟩ | h
  · exact .inl ⟨ev, hs ev h1, h2⟩
  · exact .inr h

theorem fin_loop {op0 : Fd → Bool} {fromcert rep0 : Bool} {N C : Bytes} (hg : ∀ e, (g.crt e).2.length = 256)
    (evs : List Ev) : ∀ {s : St E}, Inv op0 fromcert rep0 N C s →
    ∃ s' why, loop g fromcert s evs = .ok (s', why) ∧ Fin op0 fromcert rep0 N C evs s' why := by
  induction evs with
  | nil => intro s h; exact ⟨_, _, rfl, fin_none h⟩
  | cons ev evs ih =>
    intro s h
    obtain ⟨s1, why, e, hf⟩ := fin_rest (evs := ev :: evs) ev (by simp) (hg _) (mid_top (g := g) ev.pend h)
    simp only [loop]
    rw [e]
    cases why with
    | some y => exact ⟨_, _, rfl, hf⟩
    | none =>
      obtain ⟨s2, why, e2, hf2⟩ := ih (hf.go rfl)
      exact ⟨s2, why, e2, fin_mono hf2 (by simp +contextual)⟩

theorem inv_start (op0 : Fd → Bool) (fromcert rep0 : Bool) (e : E) (N C : Bytes) :
    Inv op0 fromcert rep0 N C (start op0 e rep0 N C) := by
  refine ⟨⟨always_nil _, ?_, rfl, rfl, rfl, rfl⟩, ⟨?_, ?_, ?_, ?_⟩, ?_, rfl, rfl⟩
  · intro f; simp [start, Closed]
  · simp [start]
  · intro _; rfl
  · intro _; rfl
  · simp [start]
  · rintro ⟨st, h, -⟩; simp [start] at h

/-! ### C44 -/

/-- The name buffer is the 256-byte array of tls.h:53. -/
def Engine.Sized (g : Engine E) : Prop := ∀ e, (g.crt e).2.length = 256

/-- The run ended by the death of the process while reporting the account. -/
def Died (why : Option Why) : Prop := why = some .noName ∨ why = some .userFailed ∨ why = some .userBlocked

theorem run_fin (hg : g.Sized) {op0 : Fd → Bool} {fromcert rep0 : Bool} {e : E} {N C : Bytes} {evs : List Ev} {s : St E}
    {why : Option Why} (h : loop g fromcert (start op0 e rep0 N C) evs = .ok (s, why)) :
    Fin op0 fromcert rep0 N C evs s why := by
  obtain ⟨s', why', e', hf⟩ := fin_loop (g := g) hg evs (inv_start op0 fromcert rep0 e N C)
  rw [e'] at h
  simp only [Out.ok.injEq, Prod.mk.injEq] at h
  rw [← h.1, ← h.2]
  exact hf

/-- The loop has no undefined behaviour. -/
theorem c45_defined (hg : g.Sized) (op0 : Fd → Bool) (fromcert rep0 : Bool) (e : E) (N C : Bytes) (evs : List Ev) :
    ∃ s why, loop g fromcert (start op0 e rep0 N C) evs = .ok (s, why) := by
  obtain ⟨s', why', e', _⟩ := fin_loop (g := g) hg evs (inv_start op0 fromcert rep0 e N C)
  exact ⟨_, _, e'⟩

/-- C44: at most one account record is ever written, and none if it was sent before. -/
theorem c44_at_most_once (hg : g.Sized) (op0 : Fd → Bool) (fromcert rep0 : Bool) (e : E) (N C : Bytes) (evs : List Ev)
    (s : St E) (why : Option Why) (h : loop g fromcert (start op0 e rep0 N C) evs = .ok (s, why)) :
    (users s.w.log).length ≤ 1 ∧ (rep0 = true → users s.w.log = []) := (run_fin hg h).us

/-- C44: if the engine announces send readiness no later than received data, then
before the first (and every) plaintext byte written to the child, exactly one complete
account record was written. -/
theorem c44_before_data (hg : g.Sized) (op0 : Fd → Bool) (fromcert : Bool) (e : E) (N C : Bytes) (evs : List Ev)
    (s : St E) (why : Option Why) (h : loop g fromcert (start op0 e false N C) evs = .ok (s, why))
    (ho : Ordered s.w.log) (pre post : List (Act Fd)) (d : Bytes)
    (hw : s.w.log = pre ++ .write .childin d :: post) : ∃ u, users pre = [u] ∧ Record fromcert u := by
  have hal := (run_fin hg h).wi.al pre _ post hw
  refine hal.2.2.2.2 rfl ?_
  intro p a q hp
  exact ho p a (q ++ .write .childin d :: post) (by rw [hw, hp]; simp)

/-- C44: once the engine was seen ready to send and the process did not die reporting,
the record was written exactly once, unless the child's input was closed first. -/
theorem c44_exactly_once (hg : g.Sized) (op0 : Fd → Bool) (fromcert : Bool) (e : E) (N C : Bytes) (evs : List Ev)
    (s : St E) (why : Option Why) (h : loop g fromcert (start op0 e false N C) evs = .ok (s, why))
    (hd : ¬ Died why) (hc : CanSend s.w.log) :
    (∃ u, users s.w.log = [u] ∧ Record fromcert u) ∨ Closed op0 s.w.log .childin := by
  have hf := run_fin hg h
  have hi : Inv op0 fromcert false N C s := by
    refine hf.r0 ?_
    simp only [Died, not_or] at hd
    cases why with
    | none => simp
    | some y => cases y <;> simp_all
  rcases hi.v2 hc with h | h
  · exact .inl (hi.ui.u4 rfl h)
  · exact .inr ((hi.wi.cl _).mp h)

/-- C44: the record names the account: when the report is due, either the process dies
(no name in the certificate, or the child's input cannot be written) or the frame of
exactly the NUL-terminated account name is written. -/
theorem c44_name (hg : g.Sized) (fromcert : Bool) (st : Flags) (s : St E) (wevs : List WrEv) (hhs : s.hs = false)
    (hrep : s.rep = false) (hst : st.sendapp = true) :
    ∃ s' why, reportHandshake g fromcert st s wevs = .ok (s', why) ∧
      (Died why ∨ why = none ∧ ∃ u, s'.w.log = s.w.log ++ [.eng (.user u), .alarm] ∧
        Pipe.Spec.Frame u (account fromcert (g.crt s.e).2 ++ [0]) ∧ ¬ (fromcert = true ∧ (g.crt s.e).1 = 0)) := by
  obtain ⟨s', why, e, hh⟩ := report_cases (g := g) fromcert st s wevs (hg _)
  refine ⟨s', why, e, ?_⟩
  rcases hh with ⟨-, -, h | h⟩ | ⟨-, -, ⟨h, -⟩ | ⟨-, ⟨-, h⟩ | ⟨-, h2, d, ⟨-, rfl⟩ | ⟨rfl, rfl, hf⟩⟩⟩⟩
  · simp [h] at hhs
  · simp [h] at hst
  · simp [h] at hrep
  · left; rcases h with ⟨rfl, -⟩ | rfl | rfl <;> simp [Died]
  · left; simp [Died]
  · right; exact ⟨rfl, d, by simp [Clear.act_log], hf, h2⟩

/-! ### C45 -/

/-- C45: at every moment the phase does only what `Allowed` says. -/
theorem c45_allowed (hg : g.Sized) (op0 : Fd → Bool) (fromcert rep0 : Bool) (e : E) (N C : Bytes) (evs : List Ev)
    (s : St E) (why : Option Why) (h : loop g fromcert (start op0 e rep0 N C) evs = .ok (s, why)) :
    Always (Allowed op0 fromcert rep0) s.w.log := (run_fin hg h).wi.al

/-- C45: the plaintext written to the child is exactly the plaintext taken from the
engine; the records written to the network are exactly those taken from the engine; the
child's output and the network's records given to the engine are exactly those read, and
these are prefixes of what arrived. -/
theorem c45_moved (hg : g.Sized) (op0 : Fd → Bool) (fromcert rep0 : Bool) (e : E) (N C : Bytes) (evs : List Ev)
    (s : St E) (why : Option Why) (h : loop g fromcert (start op0 e rep0 N C) evs = .ok (s, why)) :
    wroteOf .childin s.w.log = tookApp s.w.log ∧ wroteOf .peerout s.w.log = tookRec s.w.log ∧
    readOf .childout s.w.log = gaveApp s.w.log ∧ readOf .peerin s.w.log = gaveRec s.w.log ∧
    gaveApp s.w.log <+: C ∧ gaveRec s.w.log <+: N := by
  have hf := run_fin hg h
  refine ⟨hf.wi.b1, hf.wi.b2, hf.wi.b3, hf.wi.b4, ?_, ?_⟩
  · rw [← hf.wi.b3]; exact ⟨_, hf.n2⟩
  · rw [← hf.wi.b4]; exact ⟨_, hf.n1⟩

/-- Any relation between the engine and the trace that each engine operation preserves
(with its own entry in the trace, and only within what the engine offered) and that other
entries preserve. -/
structure Preserved (g : Engine E) (R : E → List (Act Fd) → Prop) : Prop where
  other : ∀ e l a, (∀ x, a = .eng x → (∃ st, x = .state st) ∨ (∃ w, x = .wait w) ∨ ∃ u, x = .user u) → R e l → R e (l ++ [a])
  recvapp : ∀ e l n, 0 < n → n ≤ (g.recvapp e).length → R e l →
    R (g.recvappAck e n) (l ++ [.eng (.recvapp (g.recvapp e) n)])
  sendrec : ∀ e l n, 0 < n → n ≤ (g.sendrec e).length → R e l →
    R (g.sendrecAck e n) (l ++ [.eng (.sendrec (g.sendrec e) n)])
  sendapp : ∀ e l m n, 0 < n → n ≤ (g.sendapp e).length → m.length = (g.sendapp e).length →
    m.drop n = (g.sendapp e).drop n → R e l → R (g.sendappAck e m n) (l ++ [.eng (.sendapp m n)])
  recvrec : ∀ e l m n, 0 < n → n ≤ (g.recvrec e).length → m.length = (g.recvrec e).length →
    m.drop n = (g.recvrec e).drop n → R e l → R (g.recvrecAck e m n) (l ++ [.eng (.recvrec m n)])
  flush : ∀ e l, R e l → R (g.flush e) (l ++ [.eng .flush])
  close : ∀ e l, R e l → R (g.close e) (l ++ [.eng .close])

theorem pres_io {R : E → List (Act Fd) → Prop} (hR : Preserved g R) {e : E} {w : W} {a : Act Fd} (h : R e w.log)
    (ha : ∀ x, a ≠ .eng x) : R e (w.act a).log := hR.other _ _ _ (fun x hx => absurd hx (ha x)) h

theorem pres_close {R : E → List (Act Fd) → Prop} (hR : Preserved g R) {e : E} {w : W} (f : Fd) (h : R e w.log) :
    R e (w.close f).log := by
  unfold W.close
  split
  · exact hR.other _ _ _ (by simp) h
  · exact h

theorem pres_closes {R : E → List (Act Fd) → Prop} (hR : Preserved g R) {e : E} {w : W} (st : Flags) (pend : Bool)
    (h : R e w.log) : R e (closes st pend w).log := by
  have key : ∀ (P : Prop) [Decidable P] (w : W) (f : Fd), R e w.log → R e (if P then w.close f else w).log := by
    intro P _ w f h
    split
    · exact pres_close hR f h
    · exact h
  exact key _ _ _ (key _ _ _ (key _ _ _ h))

theorem pres_look {R : E → List (Act Fd) → Prop} (hR : Preserved g R) {s : St E} (h : R s.e s.w.log) :
    R (look g s).2.e (look g s).2.w.log := by
  refine hR.other _ _ _ ?_ h
  intro x hx
  simp at hx
  exact .inl ⟨_, hx.symm⟩

theorem pres_top {R : E → List (Act Fd) → Prop} (hR : Preserved g R) {s : St E} (pend : Bool) (h : R s.e s.w.log) :
    R (top g s pend).2.e (top g s pend).2.w.log := by
  have h1 := pres_look hR h
  have h2 := pres_closes hR (look g s).1 pend h1
  unfold top shutdown
  simp only
  split
  · exact pres_look hR (s := ⟨_, _, _, _, _, _⟩) (hR.flush _ _ (hR.close _ _ h2))
  · exact h2

theorem pres_selfpipe {R : E → List (Act Fd) → Prop} (hR : Preserved g R) {e : E} {w : W} (sig : SigEv)
    (h : R e w.log) : R e (selfpipeEvent w sig).1.log := by
  cases sig with
  | again => exact h
  | failed => exact h
  | byte c =>
    have h1 : R e (w.act (.sig c)).log := pres_io hR h (by simp)
    simp only [selfpipeEvent]
    split
    · exact pres_io hR (pres_close hR _ h1) (by simp)
    · split
      · exact pres_io hR (pres_close hR _ (pres_close hR _ (pres_close hR _ (pres_close hR _ h1)))) (by simp)
      · exact h1

theorem filled_drop (mem d : Bytes) (h : d.length ≤ mem.length) (m : Bytes)
    (hm : copyN mem 0 d d.length = .ok m) : m.length = mem.length ∧ m.drop d.length = mem.drop d.length := by
  rw [copyN_full _ _ _ _ (Nat.le_refl _) (by omega)] at hm
  simp only [Out.ok.injEq] at hm
  subst hm
  constructor
  · simp; omega
  · simp

theorem pres_rest (hg : g.Sized) {R : E → List (Act Fd) → Prop} (hR : Preserved g R) (fromcert : Bool) (st : Flags)
    {s s' : St E} {why : Option Why} (ev : Ev) (h : R s.e s.w.log)
    (he : rest g fromcert st s ev = .ok (s', why)) : R s'.e s'.w.log := by
  obtain ⟨s1, y, e, hh⟩ := report_cases (g := g) fromcert st s ev.usr (hg _)
  have hu : ∀ d, R s.e (s.w.act (.eng (.user d))).log := fun d => by
    refine hR.other _ _ _ ?_ h
    intro x hx
    simp at hx
    exact .inr (.inr ⟨_, hx.symm⟩)
  have h1 : R s1.e s1.w.log := by
    rcases hh with ⟨rfl, -⟩ | ⟨-, -, ⟨-, rfl, -⟩ | ⟨-, ⟨rfl, -⟩ | ⟨-, -, d, ⟨rfl, -⟩ | ⟨rfl, -⟩⟩⟩⟩
    · exact h
    · exact pres_io hR h (by simp)
    · exact h
    · exact hu d
    · exact pres_io hR (hu d) (by simp)
  unfold rest at he
  rw [e] at he
  simp only [Out.ok_bind] at he
  generalize can st s.w = c at he
  clear hh e hu h
  cases y with
  | some y => simp at he; rw [← he.1]; exact h1
  | none =>
    simp only at he
    split at he
    · simp at he; rw [← he.1]; exact h1
    split at he
    · simp at he; rw [← he.1]; exact h1
    split at he
    · simp at he; rw [← he.1]; exact h1
    have h2 : R s1.e (s1.w.act (.eng (.wait (watched c)))).log := by
      refine hR.other _ _ _ ?_ h1
      intro x hx
      simp at hx
      exact .inr (.inl ⟨_, hx.symm⟩)
    generalize hs2 : ({ s1 with w := s1.w.act (.eng (.wait (watched c))) } : St E) = s2 at he
    have h3 : R s2.e s2.w.log := by rw [← hs2]; exact h2
    clear hs2 h2 h1
    unfold serve at he
    split at he
    · unfold doToChild at he
      rcases tryWrite_cases (g.recvapp s2.e) ev.wr with e | e | ⟨n, p0, p1, e⟩ <;> rw [e] at he <;> simp at he
      · rw [← he.1]; exact h3
      · rw [← he.1]; exact pres_close hR _ (pres_io hR h3 (by simp))
      · rw [← he.1]
        rw [Nat.min_eq_left p1]
        exact hR.recvapp _ _ _ p0 p1 (pres_io hR h3 (by simp))
    split at he
    · unfold doToPeer at he
      rcases tryWrite_cases (g.sendrec s2.e) ev.wr with e | e | ⟨n, p0, p1, e⟩ <;> rw [e] at he <;> simp at he
      · rw [← he.1]; exact h3
      · rw [← he.1]; exact pres_close hR _ (pres_io hR h3 (by simp))
      · rw [← he.1]
        rw [Nat.min_eq_left p1]
        exact hR.sendrec _ _ _ p0 p1 (pres_io hR h3 (by simp))
    split at he
    · unfold doFromPeer at he
      rcases tryRead_cases (g.recvrec s2.e).length s2.net ev.rd with e | e | ⟨d, p0, p1, -, e⟩ <;> rw [e] at he
      · simp at he; rw [← he.1]; exact h3
      · simp at he; rw [← he.1]; exact pres_close hR _ (pres_io hR h3 (by simp))
      · obtain ⟨m, e1, e2, e3⟩ := filled (g.recvrec s2.e) d p1
        obtain ⟨q1, q2⟩ := filled_drop _ _ p1 _ e1
        simp [e1] at he
        rw [← he.1]
        exact pres_io hR (hR.recvrec _ _ _ _ (List.length_pos_iff.mpr p0) p1 q1 q2 (pres_io hR h3 (by simp))) (by simp)
    split at he
    · unfold doFromChild at he
      rcases tryRead_cases (g.sendapp s2.e).length s2.chd ev.rd with e | e | ⟨d, p0, p1, -, e⟩ <;> rw [e] at he
      · simp at he; rw [← he.1]; exact h3
      · simp at he; rw [← he.1]; exact pres_close hR _ (pres_io hR h3 (by simp))
      · obtain ⟨m, e1, e2, e3⟩ := filled (g.sendapp s2.e) d p1
        obtain ⟨q1, q2⟩ := filled_drop _ _ p1 _ e1
        simp [e1] at he
        rw [← he.1]
        exact pres_io hR (hR.flush _ _ (hR.sendapp _ _ _ _ (List.length_pos_iff.mpr p0) p1 q1 q2
          (pres_io hR h3 (by simp)))) (by simp)
    split at he
    · simp [doSelfpipe] at he
      rw [← he.1]
      exact pres_selfpipe hR _ h3
    · simp at he; rw [← he.1]; exact h3

/-- C45: the engine is driven exactly by the exchanges recorded in the trace, in that
order, each acknowledging no more than it offered. -/
theorem c45_engine (hg : g.Sized) {R : E → List (Act Fd) → Prop} (hR : Preserved g R) (op0 : Fd → Bool)
    (fromcert rep0 : Bool) (e : E) (h0 : R e []) (N C : Bytes) (evs : List Ev) (s : St E) (why : Option Why)
    (h : loop g fromcert (start op0 e rep0 N C) evs = .ok (s, why)) : R s.e s.w.log := by
  have : ∀ (evs : List Ev) (s0 : St E), R s0.e s0.w.log → loop g fromcert s0 evs = .ok (s, why) → R s.e s.w.log := by
    intro evs
    induction evs with
    | nil => intro s0 h0 h; simp [loop] at h; rw [← h.1]; exact h0
    | cons ev evs ih =>
      intro s0 h0 h
      simp only [loop] at h
      have ht := pres_top hR ev.pend h0
      cases hr : rest g fromcert (top g s0 ev.pend).1 (top g s0 ev.pend).2 ev with
      | ub => rw [hr] at h; simp at h
      | ok v =>
        obtain ⟨s1, y⟩ := v
        have h1 := pres_rest hg hR fromcert _ ev ht hr
        rw [hr] at h
        simp only [Out.ok_bind] at h
        cases y with
        | some y => simp at h; rw [← h.1]; exact h1
        | none => exact ih s1 h1 h
  exact this evs _ h0 h

/-- An engine with a plaintext stream: `plain` is the plaintext it produced so far,
`pos` of which was acknowledged; it offers a prefix of the rest; acknowledging advances
the position, and no operation changes plaintext already produced. -/
structure Stream (g : Engine E) (plain : E → Bytes) (pos : E → Nat) : Prop where
  offer : ∀ e, g.recvapp e <+: (plain e).drop (pos e)
  ack : ∀ e n, plain (g.recvappAck e n) = plain e ∧ pos (g.recvappAck e n) = pos e + n
  sendrec : ∀ e n, plain e <+: plain (g.sendrecAck e n) ∧ pos (g.sendrecAck e n) = pos e
  sendapp : ∀ e m n, plain e <+: plain (g.sendappAck e m n) ∧ pos (g.sendappAck e m n) = pos e
  recvrec : ∀ e m n, plain e <+: plain (g.recvrecAck e m n) ∧ pos (g.recvrecAck e m n) = pos e
  flush : ∀ e, plain e <+: plain (g.flush e) ∧ pos (g.flush e) = pos e
  close : ∀ e, plain e <+: plain (g.close e) ∧ pos (g.close e) = pos e

theorem tookApp_snoc (l : List (Act Fd)) (a : Act Fd) : tookApp (l ++ [a]) = tookApp l ++ tookApp1 a := by
  rw [tookApp_append, tookApp_one]

/-- C45: the child receives exactly the acknowledged part of the engine's plaintext
stream: in order, without loss or duplication. -/
theorem c45_stream (hg : g.Sized) (plain : E → Bytes) (pos : E → Nat) (hs : Stream g plain pos) (op0 : Fd → Bool)
    (fromcert rep0 : Bool) (e : E) (h0 : pos e = 0) (N C : Bytes) (evs : List Ev) (s : St E) (why : Option Why)
    (h : loop g fromcert (start op0 e rep0 N C) evs = .ok (s, why)) :
    wroteOf .childin s.w.log = (plain s.e).take (pos s.e) ∧ pos s.e ≤ (plain s.e).length := by
  have hb := (run_fin hg h).wi.b1
  rw [hb]
  have grow : ∀ {e e' : E} {l : List (Act Fd)} {a : Act Fd}, tookApp1 a = [] → (plain e <+: plain e' ∧ pos e' = pos e) →
      (tookApp l = (plain e).take (pos e) ∧ pos e ≤ (plain e).length) →
      (tookApp (l ++ [a]) = (plain e').take (pos e') ∧ pos e' ≤ (plain e').length) := by
    rintro e e' l a ha ⟨⟨x, hx⟩, hp⟩ ⟨h1, h2⟩
    rw [tookApp_snoc, ha, h1, hp, ← hx]
    refine ⟨?_, by simp; omega⟩
    rw [List.append_nil, List.take_append_of_le_length h2]
  refine c45_engine (R := fun e l => tookApp l = (plain e).take (pos e) ∧ pos e ≤ (plain e).length) hg ?_
    op0 fromcert rep0 e (by simp [h0, tookApp]) N C evs s why h
  refine ⟨?_, ?_, ?_, ?_, ?_, ?_, ?_⟩
  · rintro e l a ha ⟨h1, h2⟩
    rw [tookApp_snoc]
    refine ⟨?_, h2⟩
    have : tookApp1 a = [] := by
      cases a with
      | eng x => rcases ha x rfl with ⟨_, rfl⟩ | ⟨_, rfl⟩ | ⟨_, rfl⟩ <;> rfl
      | _ => rfl
    rw [this, List.append_nil, h1]
  · rintro e l n hn hle ⟨h1, h2⟩
    obtain ⟨x, hx⟩ := hs.offer e
    rw [tookApp_snoc, (hs.ack e n).1, (hs.ack e n).2, h1]
    have hl : (g.recvapp e).length ≤ (plain e).length - pos e := by
      rw [← List.length_drop, ← hx]; simp
    refine ⟨?_, by omega⟩
    rw [List.take_add]
    congr 1
    simp only [tookApp1]
    rw [← hx, List.take_append_of_le_length hle]
  · intro e l n _ _ h; exact grow rfl (hs.sendrec e n) h
  · intro e l m n _ _ _ _ h; exact grow rfl (hs.sendapp e m n) h
  · intro e l m n _ _ _ _ h; exact grow rfl (hs.recvrec e m n) h
  · intro e l h; exact grow rfl (hs.flush e) h
  · intro e l h; exact grow rfl (hs.close e) h

/-! ### C46 -/

/-- C46: whenever the loop waits, it waits for at least one descriptor besides the signal
pipe: exactly those through which progress is possible. -/
theorem c46_wait (hg : g.Sized) (op0 : Fd → Bool) (fromcert rep0 : Bool) (e : E) (N C : Bytes) (evs : List Ev)
    (s : St E) (why : Option Why) (h : loop g fromcert (start op0 e rep0 N C) evs = .ok (s, why))
    (pre post : List (Act Fd)) (l : List Fd) (hw : s.w.log = pre ++ .eng (.wait l) :: post) :
    l ≠ [] ∧ ∃ st, lastState pre = some st ∧ ∀ f, f ∈ l ↔ Wanted op0 pre st f :=
  ((run_fin hg h).wi.al pre _ post hw).2

/-- C46: the reasons for which the loop ends. -/
theorem c46_end (hg : g.Sized) (op0 : Fd → Bool) (fromcert rep0 : Bool) (e : E) (N C : Bytes) (evs : List Ev)
    (s : St E) (y : Why) (h : loop g fromcert (start op0 e rep0 N C) evs = .ok (s, some y)) :
    (∃ st, lastState s.w.log = some st ∧ st.closed = true ∧ (st.sendrec = false ∨ users s.w.log = [])) ∨
    (∃ st, lastState s.w.log = some st ∧ ∀ f, ¬ Wanted op0 s.w.log st f) ∨
    (∃ q f, (f = .childin ∨ f = .peerout) ∧ s.w.log = q ++ [.failed f, .close f]) ∨
    ((∃ ev ∈ evs, ev.sig = .failed) ∨ ∃ q c, s.w.log = q ++ [.sig c] ∧ c ≠ c! 'C' ∧
      (c = c! 'A' → ∀ f, f = .childin ∨ f = .childout ∨ f = .ctl ∨ f = .ack → Closed op0 s.w.log f)) ∨
    Died (some y) := by
  have hf := run_fin hg h
  cases y with
  | handshakeFailed => obtain ⟨st, a, b, c⟩ := hf.r1 rfl; exact .inl ⟨st, a, b, .inr c⟩
  | closed => obtain ⟨st, a, b, c⟩ := hf.r2 rfl; exact .inl ⟨st, a, b, .inl c⟩
  | noProgress => exact .inr (.inl (hf.r3 rfl))
  | childWrite => obtain ⟨q, e⟩ := hf.r4 rfl; exact .inr (.inr (.inl ⟨q, _, .inl rfl, e⟩))
  | peerWrite => obtain ⟨q, e⟩ := hf.r5 rfl; exact .inr (.inr (.inl ⟨q, _, .inr rfl, e⟩))
  | signal => exact .inr (.inr (.inr (.inl (hf.r6 rfl))))
  | noName => exact .inr (.inr (.inr (.inr (.inl rfl))))
  | userFailed => exact .inr (.inr (.inr (.inr (.inr (.inl rfl)))))
  | userBlocked => exact .inr (.inr (.inr (.inr (.inr (.inr rfl)))))

/-! ### A concrete engine and runs of it -/

/-- State of a toy engine whose records are the plaintext itself: plaintext received so
far, how much of it was taken, records to send, closed. -/
structure Toy where
  hist : Bytes
  pos : Nat
  out : Bytes
  shut : Bool
  deriving Repr, DecidableEq

/-- The toy engine; with `late` it announces that it can send plaintext only after
received plaintext was taken from it. -/
def toy (late : Bool) : Engine Toy where
  state e := ⟨e.shut, decide (e.out ≠ []), !e.shut && decide (e.hist.drop e.pos = []),
    !e.shut && (!late || decide (e.pos ≠ 0)), decide (e.hist.drop e.pos ≠ [])⟩
  recvapp e := e.hist.drop e.pos
  recvappAck e n := { e with pos := e.pos + n }
  sendrec e := e.out
  sendrecAck e n := { e with out := e.out.drop n }
  sendapp _ := [0, 0, 0, 0]
  sendappAck e m n := { e with out := e.out ++ m.take n }
  recvrec _ := [0, 0, 0, 0]
  recvrecAck e m n := { e with hist := e.hist ++ m.take n }
  flush e := e
  close e := { e with shut := true }
  crt _ := (1, b!"joe@example" ++ List.replicate 245 0)

theorem toy_sized (late : Bool) : (toy late).Sized := fun _ => by
  show (b!"joe@example" ++ List.replicate 245 0 : Bytes).length = 256
  rw [List.length_append, List.length_replicate]; rfl

/-- The toy engine has a plaintext stream (hypothesis of `c45_stream`). -/
theorem toy_stream (late : Bool) : Stream (toy late) Toy.hist Toy.pos := by
  exact ⟨fun _ => List.prefix_rfl, fun _ _ => ⟨rfl, rfl⟩, fun _ _ => ⟨List.prefix_rfl, rfl⟩,
    fun _ _ _ => ⟨List.prefix_rfl, rfl⟩, fun _ _ _ => ⟨List.prefix_append _ _, rfl⟩, fun _ => ⟨List.prefix_rfl, rfl⟩,
    fun _ => ⟨List.prefix_rfl, rfl⟩⟩

/-- Answers of an iteration in which the poll reports `r`. -/
def demoEv (r : Ready) (n : Nat) : Ev := ⟨false, [.data 3, .eagain .ok, .data 100, .data 100], some r, .data n, .data n, .again⟩

def demoEvs : List Ev :=
  [demoEv ⟨false, true, false, false, false⟩ 9, demoEv ⟨false, false, true, false, false⟩ 1,
   demoEv ⟨false, false, true, true, false⟩ 9, demoEv ⟨false, false, false, true, false⟩ 0,
   demoEv ⟨true, false, false, true, false⟩ 9, demoEv ⟨false, false, false, true, false⟩ 9,
   demoEv ⟨true, false, false, false, false⟩ 9, demoEv ⟨false, false, false, true, false⟩ 9, demoEv ⟨true, false, false, false, false⟩ 9]

/-- A whole session with option -U: the record, then "hi!" to the child, "ok" to the
network, then orderly shutdown. The hypotheses of C44 (`Ordered`) and C46 hold. -/
example : (match loop (toy false) true (start (fun _ => true) ⟨[], 0, [], false⟩ false b!"hi!" b!"ok") demoEvs with
    | .ok (s, some .closed) => wroteOf .childin s.w.log == b!"hi!" && wroteOf .peerout s.w.log == b!"ok" &&
        users s.w.log == [[4, 0, 0, 0, 0, 0, 0, 0] ++ b!"joe\x00"] &&
        (s.w.log.filterMap (fun a => match a with | .eng (.state st) => some (!st.recvapp || st.sendapp) | _ => none)).all id
    | _ => false) = true := by decide +kernel

/-- Without the assumption on the engine C44 fails: an engine that announces received
plaintext before it announces send readiness makes the loop write plaintext to the child
before the account record. (BearSSL announces both when the handshake completes.) -/
theorem c44_needs_ordered : ∃ s why, loop (toy true) true (start (fun _ => true) ⟨[], 0, [], false⟩ false b!"hi!" b!"") demoEvs =
      .ok (s, why) ∧
    ∃ pre post, s.w.log = pre ++ .write .childin b!"hi" :: post ∧ users pre = [] ∧ users post ≠ [] := by
  obtain ⟨s, why, e⟩ := c45_defined (toy_sized true) (fun _ => true) true false ⟨[], 0, [], false⟩ b!"hi!" b!"" demoEvs
  refine ⟨s, why, e, ?_⟩
  have h : (match loop (toy true) true (start (fun _ => true) ⟨[], 0, [], false⟩ false b!"hi!" b!"") demoEvs with
    | .ok (s, _) => s.w.log == s.w.log.take 7 ++ .write .childin b!"hi" :: s.w.log.drop 8 &&
        (users (s.w.log.take 7) == []) && !(users (s.w.log.drop 8) == [])
    | _ => false) = true := by decide +kernel
  rw [e] at h
  simp only [Bool.and_eq_true, beq_iff_eq, Bool.not_eq_true'] at h
  exact ⟨_, _, h.1.1, h.1.2, fun hh => by rw [hh] at h; exact absurd h.2 (by decide)⟩

end Relay.Tls
