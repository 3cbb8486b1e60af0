import Verif.Fd.Open
import Verif.Fd.Props
/-
C86: new descriptors are private and non-blocking, a failed attempt leaves nothing behind, and a connection is
attempted to exactly the given address.
-/
namespace Fd

/-! ### Specification -/

/-- Number `n` was free and now is a descriptor of an open file of this kind that is closed by execve() and does not block. -/
def Opened (k k' : Kern) (n : Nat) (w : Kind) : Prop :=
  k.fds n = none ∧ ∃ d fl, k'.fds n = some (d, fl) ∧ fl.getLsbD 0 = true ∧ (k'.files d).kind = w ∧ (k'.files d).status.getLsbD 11 = true

/-- Except for the numbers in `l`, all descriptors are as before, and so are their open files and those of other processes. -/
structure Kept (k k' : Kern) (l : List Nat) : Prop where
  fds : ∀ m, m ∉ l → k'.fds m = k.fds m
  files : ∀ m d fl, k.fds m = some (d, fl) → k'.files d = k.files d
  theirs : ∀ d, k.elsewhere d → k'.files d = k.files d
  elsewhere : k'.elsewhere = k.elsewhere

/-- execve() leaves the number open. -/
def Inherited (k : Kern) (n : Nat) : Prop := ∃ d fl, k.fds n = some (d, fl) ∧ fl.getLsbD 0 = false

/-- The address in the bytes of a `struct sockaddr_in6`. -/
def addrOf (b : Bytes) : Bytes := (b.drop 8).take 16
def portOf (b : Bytes) : Bytes := (b.drop 2).take 2

/-! ### Lemmas -/

theorem at_nat (k : Kern) (n : Nat) : at? k (n : Int) = k.fds n := by
  unfold at?; rw [if_neg (by omega), Int.toNat_natCast]

theorem setfd1_eq (n : Nat) (s : St) (d : Nat) (fl : BitVec 32) (h : s.k.fds n = some (d, fl)) :
    setfd1 false n s = (0, { s with k := { s.k with fds := fun m => if m = n then some (d, 1) else s.k.fds m } }) := by
  unfold setfd1 setfd
  rw [at_nat, h]
  simp

theorem setfd1_fault (n : Nat) (s : St) (d : Nat) (fl : BitVec 32) (h : s.k.fds n = some (d, fl)) :
    setfd1 true n s = (-1, { s with errno := EINVAL }) := by
  unfold setfd1 setfd
  rw [at_nat, h]
  simp

theorem nonblock_eq (n : Nat) (s : St) (d : Nat) (fl : BitVec 32) (h : s.k.fds n = some (d, fl)) :
    fd_blocking_disable false n s = { s with k := { s.k with files := fun e =>
      if e = d then ⟨(s.k.files d).kind, (s.k.files d).status ||| O_NONBLOCK⟩ else s.k.files e } } := by
  unfold fd_blocking_disable getfl setfl
  rw [at_nat, h]
  simp

theorem close_eq (f : Option Int) (n : Nat) (s : St) (x : Nat × BitVec 32) (h : s.k.fds n = some x) :
    (close f n s).2.k = { s.k with fds := fun m => if m = n then none else s.k.fds m } := by
  unfold close
  rw [at_nat, h]
  cases f <;> simp

/-! ### C86 -/

/-- C86: `socket_tcp` either fails and leaves every descriptor as it was, or returns a number that was free and now is a new
connection endpoint, closed by execve() and non-blocking. -/
theorem c86_socket (r : Except Int New) (f1 : Bool) (f2 f3 f4 : Option Int) (s : St)
    (hr : ∀ a, r = .ok a → New.Fresh s.k a) :
    let o := socket_tcp r f1 f2 f3 f4 false s
    (o.1 = -1 ∧ Kept s.k o.2.k [] ∧ ((∃ e, r = .error e) ∨ f1 = true ∨ f2 ≠ none)) ∨
    ∃ a, r = .ok a ∧ o.1 = a.num ∧ Opened s.k o.2.k a.num (.sock a.id) ∧ Kept s.k o.2.k [a.num] := by
  cases r with
  | error e => exact .inl ⟨rfl, ⟨fun _ _ => rfl, fun _ _ _ _ => rfl, fun _ _ => rfl, rfl⟩, .inl ⟨e, rfl⟩⟩
  | ok a =>
    obtain ⟨h1, h2, h3⟩ := hr a rfl
    have hn : ¬ ((a.num : Int) = -1) := by omega
    simp only [socket_tcp]
    rw [show socket (.ok a) s = ((a.num : Int), (socket (.ok a) s).2) from rfl]
    simp only [hn, if_false]
    generalize hs : (socket (.ok a) s).2 = s1
    have hd : s1.k.fds a.num = some (a.file, 0) := by rw [← hs]; simp [socket, install]
    have hfd : ∀ m, m ≠ a.num → s1.k.fds m = s.k.fds m := fun m hm => by rw [← hs]; simp [socket, install, hm]
    have hfl : ∀ e, e ≠ a.file → s1.k.files e = s.k.files e := fun e he => by rw [← hs]; simp [socket, install, he]
    have hk : s1.k.files a.file = ⟨.sock a.id, 2⟩ := by rw [← hs]; simp [socket, install]
    have hel : s1.k.elsewhere = s.k.elsewhere := by rw [← hs]; rfl
    have gone : ∀ (f : Option Int) (s2 : St) x, s2.k.fds a.num = some x → (∀ m, m ≠ a.num → s2.k.fds m = s1.k.fds m) → s2.k.files = s1.k.files →
        s2.k.elsewhere = s1.k.elsewhere → Kept s.k (close f a.num s2).2.k [] := by
      intro f s2 x hx e1 e2 e3
      rw [close_eq f a.num s2 x hx]
      refine ⟨fun m _ => ?_, fun m d fl hm => ?_, fun d hd => ?_, ?_⟩
      · by_cases hm : m = a.num
        · simp [hm, h1]
        · simp [hm, e1 m hm, hfd m hm]
      · show s2.k.files d = _
        rw [e2, hfl d (fun e => h3 m fl (e ▸ hm))]
      · show s2.k.files d = _
        rw [e2, hfl d (fun e => h2 (e ▸ hd))]
      · show s2.k.elsewhere = _
        rw [e3, hel]
    cases f1 with
    | true =>
      rw [setfd1_fault a.num s1 _ _ hd]
      simp only [if_true]
      exact .inl ⟨by simp, gone f3 _ _ hd (fun _ _ => rfl) rfl rfl, .inr (.inl trivial)⟩
    | false =>
      rw [setfd1_eq a.num s1 _ _ hd]
      simp only [show ¬ ((0 : Int) = -1) by decide, if_false]
      cases f2 with
      | some e =>
        refine .inl ⟨by simp, gone f4 _ (a.file, 1) (by simp) (fun m hm => by simp [hm]) rfl rfl, .inr (.inr (by simp))⟩
      | none =>
        right
        refine ⟨a, rfl, rfl, ?_⟩
        simp only
        rw [nonblock_eq a.num _ a.file 1 (by simp)]
        simp only [hk]
        refine ⟨⟨h1, a.file, 1, by simp, by decide, by simp, ?_⟩, ⟨fun m hm => ?_, fun m d fl hm => ?_, fun d hd => ?_, hel⟩⟩
        · simp only [if_true]; decide
        · have : m ≠ a.num := by simpa using hm
          simp [this, hfd m this]
        · have : d ≠ a.file := fun e => h3 m fl (e ▸ hm)
          simp [this, hfl d this]
        · have : d ≠ a.file := fun e => h2 (e ▸ hd)
          simp [this, hfl d this]

/-- C86: `open_pipe` either fails and leaves every descriptor as it was, or returns the two ends of a new pipe, reading end
first, both closed by execve() and non-blocking. (fcntl with these arguments cannot fail on an open descriptor; its result is not
looked at.) -/
theorem c86_pipe (r : Except Int (New × New)) (s : St)
    (hr : ∀ a b, r = .ok (a, b) → New.Fresh s.k a ∧ New.Fresh s.k b ∧ a.num ≠ b.num ∧ a.file ≠ b.file) :
    let o := open_pipe r false false false false s
    (o.1 = -1 ∧ o.2.1 = none ∧ Kept s.k o.2.2.k [] ∧ ∃ e, r = .error e ∧ o.2.2.errno = e) ∨
    ∃ a b : New, r = .ok (a, b) ∧ o.1 = 0 ∧ o.2.1 = some ((a.num : Int), (b.num : Int)) ∧
      Opened s.k o.2.2.k a.num (.rpipe a.id) ∧ Opened s.k o.2.2.k b.num (.wpipe a.id) ∧ Kept s.k o.2.2.k [a.num, b.num] := by
  cases r with
  | error e => exact .inl ⟨rfl, rfl, ⟨fun _ _ => rfl, fun _ _ _ _ => rfl, fun _ _ => rfl, rfl⟩, e, rfl, rfl⟩
  | ok p =>
    obtain ⟨a, b⟩ := p
    obtain ⟨⟨h1, h2, h3⟩, ⟨g1, g2, g3⟩, hn, hf⟩ := hr a b rfl
    right
    refine ⟨a, b, rfl, ?_⟩
    have hn' : b.num ≠ a.num := fun e => hn e.symm
    have hf' : b.file ≠ a.file := fun e => hf e.symm
    simp only [open_pipe, pipe]
    rw [setfd1_eq a.num _ a.file 0 (by simp [install, hn])]
    simp only
    rw [nonblock_eq a.num _ a.file 1 (by simp)]
    simp only
    rw [setfd1_eq b.num _ b.file 0 (by simp [install, hn'])]
    simp only
    rw [nonblock_eq b.num _ b.file 1 (by simp)]
    refine ⟨trivial, trivial, ⟨h1, a.file, 1, by simp [hn], by decide, by simp [install, hf], ?_⟩,
      ⟨g1, b.file, 1, by simp, by decide, by simp [install, hf'], ?_⟩, ⟨fun m hm => ?_, fun m d fl hm => ?_, fun d hd => ?_, rfl⟩⟩
    · simp [install, hf]; decide
    · simp [install, hf']; decide
    · simp only [List.mem_cons, List.not_mem_nil, or_false, not_or] at hm
      simp [install, hm.1, hm.2]
    · have e1 : d ≠ a.file := fun e => h3 m fl (e ▸ hm)
      have e2 : d ≠ b.file := fun e => g3 m fl (e ▸ hm)
      simp [install, e1, e2]
    · have e1 : d ≠ a.file := fun e => h2 (e ▸ hd)
      have e2 : d ≠ b.file := fun e => g2 (e ▸ hd)
      simp [install, e1, e2]

/-- C86: `open_read` either fails and changes nothing, or returns a new descriptor, closed by execve() from the first moment
on (no call in between), non-blocking, and for reading only. -/
theorem c86_open (r : Except Int New) (s : St) (hr : ∀ a, r = .ok a → New.Fresh s.k a) :
    let o := open_read r s
    (o.1 = -1 ∧ o.2.k = s.k ∧ ∃ e, r = .error e) ∨
    ∃ a, r = .ok a ∧ o.1 = a.num ∧ Opened s.k o.2.k a.num .other ∧ Kept s.k o.2.k [a.num] ∧
      ∀ d fl, o.2.k.fds a.num = some (d, fl) → (o.2.k.files d).status &&& 3#32 = 0#32 := by
  cases r with
  | error e => exact .inl ⟨rfl, rfl, e, rfl⟩
  | ok a =>
    obtain ⟨h1, h2, h3⟩ := hr a rfl
    right
    refine ⟨a, rfl, rfl, ⟨h1, a.file, 1, ?_, by decide, by simp [open_read, open_, install], ?_⟩,
      ⟨fun m hm => ?_, fun m d fl hm => ?_, fun d hd => ?_, rfl⟩, fun d fl hd => ?_⟩
    · show (if a.num = a.num then some (a.file, _) else _) = _
      rw [if_pos rfl, if_neg (by decide)]
    · show (if a.file = a.file then _ else _ : File).status.getLsbD 11 = true
      rw [if_pos rfl]; decide
    · have : m ≠ a.num := by simpa using hm
      simp [open_read, open_, install, this]
    · have : d ≠ a.file := fun e => h3 m fl (e ▸ hm)
      simp [open_read, open_, install, this]
    · have : d ≠ a.file := fun e => h2 (e ▸ hd)
      simp [open_read, open_, install, this]
    · simp only [open_read, open_, install, if_true, Option.some.injEq, Prod.mk.injEq] at hd
      simp only [← hd.1, open_read, open_, install, if_true]
      decide

/-- A sequence of calls of the three functions, with any answers of the kernel. -/
inductive Opens : St → St → Prop where
  | done (s) : Opens s s
  | socket {s t : St} (r f1 f2 f3 f4) : Opens s t → (∀ a, r = .ok a → New.Fresh t.k a) →
      Opens s (socket_tcp r f1 f2 f3 f4 false t).2
  | pipe {s t : St} (r) : Opens s t → (∀ a b, r = .ok (a, b) → New.Fresh t.k a ∧ New.Fresh t.k b ∧ a.num ≠ b.num ∧ a.file ≠ b.file) →
      Opens s (open_pipe r false false false false t).2.2
  | file {s t : St} (r) : Opens s t → (∀ a, r = .ok a → New.Fresh t.k a) → Opens s (open_read r t).2

theorem inherited_kept {k k' : Kern} {l : List Nat} (h : Kept k k' l) (ho : ∀ m ∈ l, ∃ w, Opened k k' m w) (n : Nat) :
    Inherited k' n ↔ Inherited k n := by
  rcases Classical.em (n ∈ l) with hm | hm
  · obtain ⟨w, h1, d, fl, h2, h3, -⟩ := ho n hm
    constructor
    · rintro ⟨d', fl', e, b⟩
      rw [h2] at e; cases e
      rw [h3] at b; cases b
    · rintro ⟨d', fl', e, b⟩
      rw [h1] at e; cases e
  · unfold Inherited
    rw [h.fds n hm]

/-- C86: whatever is opened by these functions, in any number and order and with any failures, a program started afterwards
inherits exactly the descriptors it would have inherited before. -/
theorem c86_private {s t : St} (h : Opens s t) (n : Nat) : Inherited t.k n ↔ Inherited s.k n := by
  induction h with
  | done => exact Iff.rfl
  | socket r f1 f2 f3 f4 _ hr ih =>
    rw [← ih]
    rcases c86_socket r f1 f2 f3 f4 _ hr with ⟨-, h, -⟩ | ⟨a, -, -, h1, h2⟩
    · exact inherited_kept h (by simp) n
    · exact inherited_kept h2 (by simpa using ⟨_, h1⟩) n
  | pipe r _ hr ih =>
    rw [← ih]
    rcases c86_pipe r _ hr with ⟨-, -, h, -⟩ | ⟨a, b, -, -, -, h1, h2, h3⟩
    · exact inherited_kept h (by simp) n
    · exact inherited_kept h3 (by simpa using ⟨⟨_, h1⟩, ⟨_, h2⟩⟩) n
  | file r _ hr ih =>
    rw [← ih]
    rcases c86_open r _ hr with ⟨-, h, -⟩ | ⟨a, -, -, h1, h2, -⟩
    · rw [h]
    · exact inherited_kept h2 (by simpa using ⟨_, h1⟩) n

/-- C86: a connection is attempted to exactly the address and port at the two pointers: 28 bytes, family IPv6, and no other
field is set by them. -/
theorem c86_address (ip port : Bytes) (id : Int) (h1 : 16 ≤ ip.length) (h2 : 2 ≤ port.length) :
    ∃ b, socket_connect_addr ip port id = .ok b ∧ b.length = 28 ∧ b.take 2 = [10, 0] ∧ portOf b = port.take 2 ∧
      (b.drop 4).take 4 = [0, 0, 0, 0] ∧ addrOf b = ip.take 16 ∧ (id = 0 → b.drop 24 = [0, 0, 0, 0]) := by
  obtain ⟨i, ti, rfl, hi⟩ : ∃ i t, ip = i ++ t ∧ i.length = 16 := ⟨ip.take 16, ip.drop 16, by simp, by simp; omega⟩
  obtain ⟨p, tp, rfl, hp⟩ : ∃ i t, port = i ++ t ∧ i.length = 2 := ⟨port.take 2, port.drop 2, by simp, by simp; omega⟩
  refine ⟨sa6 [10, 0] p [0, 0, 0, 0] i (le32 id), ?_, ?_, ?_, ?_, ?_, ?_, ?_⟩
  · unfold socket_connect_addr
    rw [if_neg (by omega), List.take_left' hi, List.take_left' hp]
  · simp [sa6, le32, hi, hp]
  · simp [sa6]
  · rw [List.take_left' hp]
    simp [portOf, sa6, hp]
  · match p, hp with
    | [x, y], _ => simp [sa6]
  · rw [List.take_left' hi]
    match p, hp with
    | [x, y], _ => simp [sa6, addrOf, hi]
  · rintro rfl
    match p, hp with
    | [x, y], _ =>
      have e : sa6 [10, 0] [x, y] [0, 0, 0, 0] i (le32 0) = ([10, 0, x, y, 0, 0, 0, 0] ++ i) ++ le32 0 := by simp [sa6]
      rw [e, List.drop_left' (by simp [hi])]
      decide

/-- C86: the last four bytes are the interface number, lowest byte first. -/
theorem c86_scope (ip port : Bytes) (id : Nat) (h1 : 16 ≤ ip.length) (h2 : 2 ≤ port.length) (h : id < 4294967296) :
    ∃ b a0 a1 a2 a3, socket_connect_addr ip port id = .ok b ∧ b.drop 24 = [a0, a1, a2, a3] ∧
      a0.toNat + 256 * a1.toNat + 65536 * a2.toNat + 16777216 * a3.toNat = id := by
  have hp : ∃ x y, port.take 2 = [x, y] := by
    match port, h2 with
    | x :: y :: _, _ => exact ⟨x, y, rfl⟩
  obtain ⟨x, y, hp⟩ := hp
  have hi : (ip.take 16).length = 16 := by simp; omega
  refine ⟨sa6 [10, 0] (port.take 2) [0, 0, 0, 0] (ip.take 16) (le32 id), UInt8.ofNat (id % 256), UInt8.ofNat (id / 256 % 256),
    UInt8.ofNat (id / 65536 % 256), UInt8.ofNat (id / 16777216 % 256), by unfold socket_connect_addr; rw [if_neg (by omega)], ?_, ?_⟩
  · rw [hp, show sa6 [10, 0] [x, y] [0, 0, 0, 0] (ip.take 16) (le32 id) = ([10, 0, x, y, 0, 0, 0, 0] ++ ip.take 16) ++ le32 id by simp [sa6],
      List.drop_left' (by simp only [List.length_append, hi]; rfl)]
    have : ((id : Int) % 2 ^ 32).toNat = id := by omega
    simp only [le32, this, show List.range 4 = [0, 1, 2, 3] from rfl, List.map_cons, List.map_nil]
    simp
  · simp only [UInt8.toNat_ofNat']
    omega

/-- C86: two attempts get the same bytes only for the same address and port. -/
theorem c86_address_distinct (ip ip' port port' : Bytes) (id id' : Int) (h1 : 16 ≤ ip.length) (h2 : 2 ≤ port.length)
    (h3 : 16 ≤ ip'.length) (h4 : 2 ≤ port'.length) (h : socket_connect_addr ip port id = socket_connect_addr ip' port' id') :
    ip.take 16 = ip'.take 16 ∧ port.take 2 = port'.take 2 := by
  obtain ⟨b, e, -, -, p, -, a, -⟩ := c86_address ip port id h1 h2
  obtain ⟨b', e', -, -, p', -, a', -⟩ := c86_address ip' port' id' h3 h4
  rw [e, e'] at h
  cases h
  exact ⟨a.symm.trans a', p.symm.trans p'⟩

/-- C86: `socket_connected` says yes exactly for a connected endpoint, and then leaves errno alone; it never changes a
descriptor. -/
theorem c86_connected (e : Int) (n : Nat) (s : St) (d id : Nat) (fl : BitVec 32) (h : s.k.fds n = some (d, fl))
    (hk : (s.k.files d).kind = .sock id) :
    ((socket_connected e n s).1 = 1 ↔ (s.k.socks id).connected = true) ∧ (socket_connected e n s).2.k = s.k ∧
    ((s.k.socks id).connected = true → (socket_connected e n s).2 = s) ∧
    ((s.k.socks id).connected = false → socket_connected e n s = (0, { s with errno := e })) := by
  unfold socket_connected
  rw [at_nat, h]
  simp only [hk]
  cases (s.k.socks id).connected <;> simp

/-- C86: a number that is not open, or is not a socket, is not connected. -/
theorem c86_connected_other (e : Int) (n : Int) (s : St)
    (h : ∀ m d id fl, n = Int.ofNat m → s.k.fds m = some (d, fl) → (s.k.files d).kind ≠ .sock id) :
    (socket_connected e n s).1 = 0 ∧ (socket_connected e n s).2.k = s.k := by
  unfold socket_connected
  cases h1 : at? s.k n with
  | none => exact ⟨rfl, rfl⟩
  | some x =>
    obtain ⟨d, fl⟩ := x
    simp only
    split
    · rename_i id hk
      unfold at? at h1
      split at h1
      · cases h1
      · exact absurd hk (h n.toNat d id fl (by simp; omega) h1)
    · exact ⟨rfl, rfl⟩

/-- C86: the file is written out exactly if it is a regular one. -/
theorem c86_fsync (stat : Option Bool) (sync : Int) :
    ((fsyncfile stat sync).2 = true ↔ stat = some true) ∧ ((fsyncfile stat sync).1 = 0 ↔ stat = some false ∨ (stat = some true ∧ sync = 0)) := by
  cases stat with
  | none => simp [fsyncfile]
  | some b => cases b <;> simp [fsyncfile]

/-! ### Samples -/

/-- A process with standard input and output only. -/
def small : Kern := ⟨fun n => if n < 2 then some (n, 0) else none, fun _ => ⟨.other, 2⟩, fun _ => False, fun _ => ⟨false, false, false⟩⟩

theorem small_fresh (a : New) (h1 : 2 ≤ a.num) (h2 : 2 ≤ a.file) : New.Fresh small a := by
  refine ⟨?_, id, fun m fl hm => ?_⟩
  · simp only [small]; rw [if_neg (by omega)]
  · simp only [small] at hm
    split at hm
    · cases hm; omega
    · cases hm

/-- The hypotheses can be met: a socket, and one that fails at the second step. -/
example : (socket_tcp (.ok ⟨2, 7, 3⟩) false none none none false ⟨small, 0⟩).1 = 2 ∧
    (socket_tcp (.ok ⟨2, 7, 3⟩) false (some 92) none none false ⟨small, 0⟩).1 = -1 ∧ New.Fresh small ⟨2, 7, 3⟩ :=
  ⟨by decide +kernel, by decide +kernel, small_fresh _ (by decide) (by decide)⟩

/-- A pipe and then a file. -/
example : ∃ t, Opens ⟨small, 0⟩ t ∧ t.k.fds 2 = some (7, 1) ∧ t.k.fds 3 = some (8, 1) ∧ ¬ Inherited t.k 2 ∧ Inherited t.k 1 := by
  have h : Opens ⟨small, 0⟩ (open_pipe (.ok (⟨2, 7, 0⟩, ⟨3, 8, 0⟩)) false false false false ⟨small, 0⟩).2.2 := by
    refine .pipe _ (.done _) fun a b e => ?_
    cases e
    exact ⟨small_fresh _ (by decide) (by decide), small_fresh _ (by decide) (by decide), by decide, by decide⟩
  refine ⟨_, h, by decide +kernel, by decide +kernel, ?_, ?_⟩
  · rw [c86_private h]; rintro ⟨d, fl, e, -⟩; cases e
  · rw [c86_private h]; exact ⟨1, 0, rfl, by decide⟩

/-- Port 443 of ::1. -/
example : socket_connect_addr (List.replicate 15 0 ++ [1]) [1, 187] 0 =
    .ok ([10, 0, 1, 187, 0, 0, 0, 0] ++ (List.replicate 15 0 ++ [1]) ++ [0, 0, 0, 0]) := by decide +kernel

end Fd
