import Verif.Jail.Lemmas
namespace Jail
open Spec

/-- The stages of a successful jail(). -/
structure Stages (w : World) (account dir : Option Bytes) (limits : Bool) (p : Proc) (k : K) (uid gid : Nat) : Prop where
  ident : Identity w account uid gid
  uid0 : uid ≠ 0
  gid0 : gid ≠ 0
  known : account ≠ none → account.bind w.passwd ≠ none
  out : ∃ (k1 k2 k3 k4 k5 k6 k7 k8 k9 : K) (m1 m2 : List (Call × Ret)),
    (k1.log = [(.setgid gid, .ok)] ∧ k1.p.rgid = gid ∧ (kSetgid p gid = some k1.p ∨ (w.faults 0 = .lie ∧ k1.p = p))) ∧
    (k2.log = (groupsCall (account.bind w.passwd) gid, .ok) :: k1.log ∧ k1.p.cap = true ∧
      k2.p = { k1.p with groups := groupsOf w (account.bind w.passwd) gid }) ∧
    (k3.log = (enterCalls dir).reverse.map (·, Ret.ok) ++ k2.log ∧
      k3.p = { k2.p with cwd := dir.getD k2.p.cwd, root := dir.getD k2.p.root }) ∧
    (k4.log = (.setuid uid, .ok) :: k3.log ∧ k4.p.ruid = uid ∧ (kSetuid k3.p uid = some k4.p ∨ (w.faults k3.n = .lie ∧ k4.p = k3.p))) ∧
    (k5.log = (if limits then [(Call.setrlimit .nofile 0 0, Ret.ok)] else []) ++ k4.log ∧
      k5.p = { k4.p with rlim := if limits then fun x => if x = .nofile then some (0, 0) else k4.p.rlim x else k4.p.rlim }) ∧
    (k6.log = (envCalls (account.bind w.passwd)).reverse.map (·, Ret.ok) ++ k5.log ∧ k6.p = { k5.p with env := envOf (account.bind w.passwd) k5.p.env }) ∧
    (k7.log = (if limits then [(Call.setrlimit .nproc 0 0, Ret.ok)] else []) ++ k6.log ∧
      k7.p = { k6.p with rlim := if limits then fun x => if x = .nproc then some (0, 0) else k6.p.rlim x else k6.p.rlim }) ∧
    (k8.log = (if limits then [(Call.setrlimit .core 0 0, Ret.ok)] else []) ++ k7.log ∧
      k8.p = { k7.p with rlim := if limits then fun x => if x = .core then some (0, 0) else k7.p.rlim x else k7.p.rlim }) ∧
    (k9.log = (if limits then [(Call.prctlDumpable false, Ret.ok)] else []) ++ k8.log ∧
      k9.p = { k8.p with dumpable := if limits then false else k8.p.dumpable }) ∧
    ∃ kA kB : K, kA.log = k9.log ∧ kA.p = { k9.p with allocLimit := some datamax } ∧ Mem .as datamax kA kB m1 ∧ Mem .data datamax kB k m2

theorem jail_stages {w : World} {account dir : Option Bytes} {limits : Bool} {p : Proc} {k : K}
    (h : jail w account dir limits p = (true, k)) : ∃ uid gid, Stages w account dir limits p k uid gid := by
  unfold jail at h
  split at h
  · rename_i k0 hb
    cases h
    unfold body at hb
    obtain ⟨t, _, ht, hb⟩ := bind_some hb
    obtain ⟨rfl, t1, t2, t3, t4, t5⟩ := target_some ht
    obtain ⟨_, k1, h1, hb⟩ := bind_some hb
    obtain ⟨_, k2, h2, hb⟩ := bind_some hb
    obtain ⟨_, k3, h3, hb⟩ := bind_some hb
    obtain ⟨_, k4, h4, hb⟩ := bind_some hb
    obtain ⟨_, k5, h5, hb⟩ := bind_some hb
    obtain ⟨_, k6, h6, hb⟩ := bind_some hb
    obtain ⟨_, k7, h7, hb⟩ := bind_some hb
    obtain ⟨_, k8, h8, hb⟩ := bind_some hb
    obtain ⟨_, k9, h9, hb⟩ := bind_some hb
    obtain ⟨_, kA, hA, hb⟩ := bind_some hb
    obtain ⟨_, kB, hB, hb⟩ := bind_some hb
    obtain ⟨m1, hm1⟩ := limitMemory_some hB
    obtain ⟨m2, hm2⟩ := limitMemory_some hb
    rw [t1] at h2 h6 t5
    have hA : kA = { k9 with p := { k9.p with allocLimit := some datamax } } := by
      unfold allocLimit at hA; cases hA; rfl
    exact ⟨t.2.1, t.2.2, t2, t3, t4, t5, k1, k2, k3, k4, k5, k6, k7, k8, k9, m1, m2, dropGid_some h1, dropGroups_some h2,
      enter_some h3, dropUid_some h4, limit_some h5, environ_some h6, limit_some h7, limit_some h8, undump_some h9, kA, kB, by rw [hA], by rw [hA], hm1, hm2⟩
  · cases h

/-- The kernel reports success of setgid() and setuid() only if they took effect, or the process was started with root's real ids. -/
def Fair (w : World) (p : Proc) : Prop := (∀ n, w.faults n ≠ .lie) ∨ (p.ruid = 0 ∧ p.rgid = 0)

/-- C61: for every kernel fault, account database, process number and starting process: if jail() returns 0, the process was privileged
before; all its user and group ids (real, effective, saved) are the account's or the derived ones and none is root's; its groups
are the account's (or just the derived one); it is confined to the directory; limits forbid files, processes and core dumps; allocation is limited;
and, if it was root, it has lost the privilege to change any of this. -/
theorem c61_jailed (w : World) (account dir : Option Bytes) (limits : Bool) (p : Proc) (hf : Fair w p) (k : K)
    (h : jail w account dir limits p = (true, k)) :
    ∃ uid gid, Identity w account uid gid ∧ uid ≠ 0 ∧ gid ≠ 0 ∧ Runs k.p uid gid ∧ Groups w account gid k.p.groups ∧
      (∀ d, dir = some d → k.p.root = d ∧ k.p.cwd = d) ∧ (dir = none → k.p.root = p.root) ∧
      (limits = true → Shut k.p) ∧ k.p.allocLimit = some 134217728 ∧
      p.cap = true ∧ (p.ruid = 0 ∨ p.euid = 0 ∨ p.suid = 0 → k.p.cap = false) := by
  obtain ⟨uid, gid, s⟩ := jail_stages h
  obtain ⟨k1, k2, k3, k4, k5, k6, k7, k8, k9, m1, m2, ⟨_, g1, g2⟩, ⟨_, r1, r2⟩, ⟨_, e2⟩, ⟨_, u1, u2⟩, ⟨_, l5⟩, ⟨_, l6⟩, ⟨_, l7⟩, ⟨_, l8⟩,
    ⟨_, l9⟩, kA, kB, _, lA, mA, mB⟩ := s.out
  have hg : p.cap = true ∧ k1.p = { p with rgid := gid, egid := gid, sgid := gid } := by
    rcases g2 with g2 | ⟨g2, g3⟩
    · unfold kSetgid at g2
      split at g2
      · rename_i hc; exact ⟨hc, (Option.some.inj g2).symm⟩
      · rename_i hc
        split at g2
        · rw [← Option.some.inj g2] at r1; exact absurd r1 hc
        · cases g2
    · rcases hf with hf | hf
      · exact absurd g2 (hf 0)
      · rw [g3, hf.2] at g1; exact absurd g1.symm s.gid0
  have hcap : k3.p.cap = true := by rw [e2, r2]; exact r1
  have hu : k4.p = { k3.p with ruid := uid, euid := uid, suid := uid, cap := !((k3.p.ruid = 0 ∨ k3.p.euid = 0 ∨ k3.p.suid = 0) ∧ uid ≠ 0) } := by
    rcases u2 with u2 | ⟨u2, u3⟩
    · unfold kSetuid at u2
      rw [if_pos hcap] at u2
      exact (Option.some.inj u2).symm
    · rcases hf with hf | hf
      · exact absurd u2 (hf _)
      · have : k3.p.ruid = 0 := by rw [e2, r2, hg.2]; exact hf.1
        rw [u3, this] at u1; exact absurd u1.symm s.uid0
  have oth : k.p = { k9.p with allocLimit := some datamax, rlim := k.p.rlim } := by
    rw [mB.other, mA.other, lA]
  have rl : ∀ x, x ≠ Res.as → x ≠ Res.data → k.p.rlim x = k9.p.rlim x := by
    intro x h1 h2
    rw [mB.rest x h2, mA.rest x h1, lA]
  have p9 : ∀ q : Proc, k4.p = q → k9.p = { q with rlim := k9.p.rlim, env := k9.p.env, dumpable := k9.p.dumpable } := by
    intro q hq
    rw [l9, l8, l7, l6, l5, hq]
  have p9 := p9 _ rfl
  have hid : k.p = { k4.p with rlim := k.p.rlim, env := k.p.env, dumpable := k.p.dumpable, allocLimit := some datamax } := by
    rw [oth, p9]
  refine ⟨uid, gid, s.ident, s.uid0, s.gid0, ?_, ?_, ?_, ?_, ?_, ?_, hg.1, ?_⟩
  · rw [hid, hu, e2, r2, hg.2]
    exact ⟨rfl, rfl, rfl, rfl, rfl, rfl⟩
  · have : k.p.groups = groupsOf w (account.bind w.passwd) gid := by rw [hid, hu, e2, r2]
    rw [this]
    cases account with
    | none => rfl
    | some a =>
      have := s.known (by simp)
      cases hp : w.passwd a with
      | none => simp [hp] at this
      | some pw => exact ⟨pw, hp, by simp [hp, groupsOf]⟩
  · rintro d rfl
    rw [hid, hu, e2]; exact ⟨rfl, rfl⟩
  · rintro rfl
    rw [hid, hu, e2, r2, hg.2]; rfl
  · rintro rfl
    refine ⟨?_, ?_, ?_, ?_⟩
    · rw [rl _ (by decide) (by decide), l9, l8, l7, l6, l5]; simp
    · rw [rl _ (by decide) (by decide), l9, l8, l7]; simp
    · rw [rl _ (by decide) (by decide), l9, l8]; simp
    · rw [oth, l9]; rfl
  · rw [oth]; rfl
  · intro hz
    have : k.p.cap = !((k3.p.ruid = 0 ∨ k3.p.euid = 0 ∨ k3.p.suid = 0) ∧ uid ≠ 0) := by rw [hid, hu]
    rw [this, e2, r2, hg.2]
    simp only [ne_eq, s.uid0, not_false_eq_true, and_true, Bool.not_eq_eq_eq_not, Bool.not_false, decide_eq_true_eq]
    exact hz

/-- C61: the calls are made in exactly this order (groups and root directory before the user id is given up, limits on files after it), and all of
them succeeded: only a memory limit the kernel does not support is passed over. -/
theorem c61_order (w : World) (account dir : Option Bytes) (limits : Bool) (p : Proc) (k : K)
    (h : jail w account dir limits p = (true, k)) :
    ∃ uid gid mem, Identity w account uid gid ∧ k.log.reverse.map (·.1) = order w account dir limits uid gid ++ mem ∧
      (∀ c ∈ mem, isMemory c = true) ∧ ∀ c r, (c, r) ∈ k.log → r = .ok ∨ (isMemory c = true ∧ r = .einval) := by
  obtain ⟨uid, gid, s⟩ := jail_stages h
  obtain ⟨k1, k2, k3, k4, k5, k6, k7, k8, k9, m1, m2, ⟨g1, _⟩, ⟨r1, _⟩, ⟨e1, _⟩, ⟨u1, _⟩, ⟨l5, _⟩, ⟨l6, _⟩, ⟨l7, _⟩, ⟨l8, _⟩,
    ⟨l9, _⟩, kA, kB, lA, _, mA, mB⟩ := s.out
  have hlog : k.log = m2 ++ (m1 ++ k9.log) := by rw [mB.log, mA.log, lA]
  have hm : ∀ x ∈ m2 ++ m1, isMemory x.1 = true ∧ x.2 ≠ .failed := by
    intro x hx
    rcases List.mem_append.1 hx with hx | hx
    · obtain ⟨h1 | ⟨a, b, h1⟩, h2⟩ := mB.calls x hx <;> exact ⟨by rw [h1]; rfl, h2⟩
    · obtain ⟨h1 | ⟨a, b, h1⟩, h2⟩ := mA.calls x hx <;> exact ⟨by rw [h1]; rfl, h2⟩
  have h9 : k9.log = ((order w account dir limits uid gid).map (·, Ret.ok)).reverse := by
    rw [l9, l8, l7, l6, l5, u1, e1, r1, g1]
    unfold order groupsCall enterCalls envCalls
    cases account.bind w.passwd <;> cases dir <;> cases limits <;> rfl
  refine ⟨uid, gid, ((m2 ++ m1).map (·.1)).reverse, s.ident, ?_, ?_, ?_⟩
  · rw [hlog, h9, ← List.append_assoc, List.reverse_append, List.map_append, List.reverse_reverse, List.map_map, ← List.map_reverse]
    congr 1
    rw [show ((·.1) ∘ fun x : Call => (x, Ret.ok)) = id from rfl, List.map_id]
  · intro c hc
    simp only [List.mem_reverse, List.mem_map] at hc
    obtain ⟨x, hx, rfl⟩ := hc
    exact (hm x hx).1
  · intro c r hcr
    rw [hlog, h9, ← List.append_assoc] at hcr
    rcases List.mem_append.1 hcr with hx | hx
    · have := hm _ hx
      cases r with
      | ok => exact .inl rfl
      | failed => exact absurd rfl this.2
      | einval => exact .inr ⟨this.1, rfl⟩
    · left
      simp only [List.mem_reverse, List.mem_map] at hx
      obtain ⟨_, _, e⟩ := hx
      cases e; rfl

/-- C61: if any call failed (other than a memory limit the kernel does not support), jail() reports failure. -/
theorem c61_failure (w : World) (account dir : Option Bytes) (limits : Bool) (p : Proc) (b : Bool) (k : K)
    (h : jail w account dir limits p = (b, k)) (c : Call) (r : Ret) (hc : (c, r) ∈ k.log) (hr : r ≠ .ok)
    (hm : ¬ (isMemory c = true ∧ r = .einval)) : b = false := by
  cases b with
  | false => rfl
  | true =>
    obtain ⟨_, _, _, _, _, _, h4⟩ := c61_order w account dir limits p k h
    rcases h4 c r hc with h | h
    · exact absurd h hr
    · exact absurd h hm

/-- C61: an unknown account, or one with root's user or group id, is refused before anything is changed. -/
theorem c61_refused (w : World) (a : Bytes) (dir : Option Bytes) (limits : Bool) (p : Proc)
    (h : w.passwd a = none ∨ ∃ pw, w.passwd a = some pw ∧ (pw.uid = 0 ∨ pw.gid = 0)) :
    jail w (some a) dir limits p = (false, ⟨p, 0, []⟩) := by
  have : target w (some a) ⟨p, 0, []⟩ = (none, ⟨p, 0, []⟩) := by
    rcases h with h | ⟨pw, h, h0⟩
    · simp only [target, h]; rfl
    · simp only [target, h]; rw [if_pos h0]; rfl
  unfold jail body
  change (match M.bind _ _ _ with | (some (), k) => (true, k) | (none, k) => (false, k)) = _
  unfold M.bind
  rw [this]

/-- C61: memory is limited to 128 MiB, unless the kernel reports that it does not support the limit. -/
theorem c61_memory (w : World) (account dir : Option Bytes) (limits : Bool) (p : Proc) (k : K)
    (h : jail w account dir limits p = (true, k)) (r : Res) (hr : r = .as ∨ r = .data) :
    (∃ soft hard, k.p.rlim r = some (soft, hard) ∧ soft ≤ 134217728) ∨ ∃ c, (c, Ret.einval) ∈ k.log ∧ isMemory c = true := by
  obtain ⟨uid, gid, s⟩ := jail_stages h
  obtain ⟨k1, k2, k3, k4, k5, k6, k7, k8, k9, m1, m2, _, _, _, _, _, _, _, _, _, kA, kB, _, _, mA, mB⟩ := s.out
  have ein : ∀ (m : List (Call × Ret)) (r' : Res), (∀ x ∈ m, (x.1 = .getrlimit r' ∨ ∃ a b, x.1 = .setrlimit r' a b) ∧ x.2 ≠ Ret.failed) → (r' = .as ∨ r' = .data) →
      (∃ x ∈ m, x.2 = Ret.einval) → (∀ x ∈ m, x ∈ k.log) → ∃ c, (c, Ret.einval) ∈ k.log ∧ isMemory c = true := by
    intro m r' h1 h2 ⟨x, hx, he⟩ h3
    refine ⟨x.1, by rw [← he]; exact h3 x hx, ?_⟩
    rcases h2 with rfl | rfl <;> rcases (h1 x hx).1 with e | ⟨a, b, e⟩ <;> rw [e] <;> rfl
  rcases hr with rfl | rfl
  · rcases mA.low with ⟨c, hd, h1, h2⟩ | h1
    · exact .inl ⟨c, hd, by rw [mB.rest _ (by decide)]; exact h1, h2⟩
    · exact .inr (ein m1 .as mA.calls (.inl rfl) h1 (fun x hx => by rw [mB.log, mA.log]; simp [hx]))
  · rcases mB.low with ⟨c, hd, h1, h2⟩ | h1
    · exact .inl ⟨c, hd, h1, h2⟩
    · exact .inr (ein m2 .data mB.calls (.inr rfl) h1 (fun x hx => by rw [mB.log]; simp [hx]))

/-- C61: with an account, the environment describes it. -/
theorem c61_environment (w : World) (a : Bytes) (dir : Option Bytes) (limits : Bool) (p : Proc) (k : K)
    (h : jail w (some a) dir limits p = (true, k)) :
    ∃ pw, w.passwd a = some pw ∧ k.p.env b!"HOME" = some pw.home ∧ k.p.env b!"SHELL" = some pw.shell ∧
      k.p.env b!"USER" = some pw.name ∧ k.p.env b!"LOGNAME" = some pw.name := by
  obtain ⟨uid, gid, s⟩ := jail_stages h
  obtain ⟨k1, k2, k3, k4, k5, k6, k7, k8, k9, m1, m2, _, _, _, _, _, ⟨_, l6⟩, ⟨_, l7⟩, ⟨_, l8⟩, ⟨_, l9⟩, kA, kB, _, lA, mA, mB⟩ := s.out
  have he : k.p.env = k6.p.env := by rw [mB.other, mA.other, lA, l9, l8, l7]
  have := s.known (by simp)
  cases hp : w.passwd a with
  | none => simp [hp] at this
  | some pw =>
    simp only [Option.bind_some, hp] at l6
    refine ⟨pw, rfl, ?_, ?_, ?_, ?_⟩ <;> rw [he, l6] <;> simp [envOf]

/-- C61: other variables of the environment are left alone. -/
theorem c61_environment_rest (w : World) (account dir : Option Bytes) (limits : Bool) (p : Proc) (k : K)
    (h : jail w account dir limits p = (true, k)) (n : Bytes) (hn : n ∉ [b!"HOME", b!"SHELL", b!"USER", b!"LOGNAME"]) :
    k.p.env n = p.env n := by
  obtain ⟨uid, gid, s⟩ := jail_stages h
  obtain ⟨k1, k2, k3, k4, k5, k6, k7, k8, k9, m1, m2, ⟨_, _, g2⟩, ⟨_, _, r2⟩, ⟨_, e2⟩, ⟨_, _, u2⟩, ⟨_, l5⟩, ⟨_, l6⟩, ⟨_, l7⟩, ⟨_, l8⟩,
    ⟨_, l9⟩, kA, kB, _, lA, mA, mB⟩ := s.out
  have e1 : k1.p.env = p.env := by
    rcases g2 with g2 | ⟨_, g2⟩
    · unfold kSetgid at g2
      split at g2
      · rw [← Option.some.inj g2]
      · split at g2
        · rw [← Option.some.inj g2]
        · cases g2
    · rw [g2]
  have e4 : k4.p.env = k3.p.env := by
    rcases u2 with u2 | ⟨_, u2⟩
    · unfold kSetuid at u2
      split at u2
      · rw [← Option.some.inj u2]
      · split at u2
        · rw [← Option.some.inj u2]
        · cases u2
    · rw [u2]
  have e5 : k5.p.env = p.env := by rw [l5]; simp only []; rw [e4, e2]; simp only []; rw [r2]; exact e1
  have e6 : k6.p.env n = p.env n := by
    rw [l6]
    simp only [List.mem_cons, not_or, List.not_mem_nil] at hn
    cases account.bind w.passwd with
    | none => simp [envOf, e5]
    | some pw => simp [envOf, e5, hn.1, hn.2.1, hn.2.2.1, hn.2.2.2.1]
  have : k.p.env = k6.p.env := by rw [mB.other, mA.other, lA, l9, l8, l7]
  rw [this, e6]

/-- What cannot be undone. -/
structure Stuck (uid gid : Nat) (p q : Proc) : Prop where
  runs : Runs q uid gid
  groups : q.groups = p.groups
  root : q.root = p.root
  cap : q.cap = false
  shut : Shut p → Shut q

/-- C61, irrevocably: whatever sequence of credential, root and limit calls an unprivileged process with these ids makes later, it keeps its ids, its
groups, its root directory and its zero limits. -/
theorem c61_irrevocable (uid gid : Nat) (p : Proc) (hr : Runs p uid gid) (hc : p.cap = false) (q : Proc) (h : Later p q) :
    Runs q uid gid ∧ q.groups = p.groups ∧ q.root = p.root ∧ q.cap = false ∧ (Shut p → Shut q) := by
  have : Stuck uid gid p q := by
    induction h with
    | refl => exact ⟨hr, rfl, rfl, hc, id⟩
    | setuid u h e ih =>
      obtain ⟨a, b, c, d, f⟩ := ih
      unfold kSetuid at e
      rw [d, if_neg (by decide)] at e
      split at e
      · rename_i hu
        have := Option.some.inj e
        subst this
        refine ⟨⟨a.ruid, ?_, a.suid, a.rgid, a.egid, a.sgid⟩, b, c, rfl, fun s => ⟨(f s).1, (f s).2, (f s).3, (f s).4⟩⟩
        rcases hu with hu | hu
        · exact hu.trans a.ruid
        · exact hu.trans a.suid
      · cases e
    | setgid g h e ih =>
      obtain ⟨a, b, c, d, f⟩ := ih
      unfold kSetgid at e
      rw [d, if_neg (by decide)] at e
      split at e
      · rename_i hu
        have := Option.some.inj e
        subst this
        refine ⟨⟨a.ruid, a.euid, a.suid, a.rgid, ?_, a.sgid⟩, b, c, rfl, fun s => ⟨(f s).1, (f s).2, (f s).3, (f s).4⟩⟩
        rcases hu with hu | hu
        · exact hu.trans a.rgid
        · exact hu.trans a.sgid
      · cases e
    | setgroups l h e ih =>
      unfold kSetgroups at e
      rw [ih.cap, if_neg (by decide)] at e
      cases e
    | chdir d h ih =>
      obtain ⟨a, b, c, d, f⟩ := ih
      exact ⟨⟨a.1, a.2, a.3, a.4, a.5, a.6⟩, b, c, d, fun s => ⟨(f s).1, (f s).2, (f s).3, (f s).4⟩⟩
    | chroot h e ih =>
      unfold kChroot at e
      rw [ih.cap, if_neg (by decide)] at e
      cases e
    | setrlimit x l m h e ih =>
      rename_i q0 r0
      obtain ⟨a, b, c, d, f⟩ := ih
      have key : ∀ y, q0.rlim y = some (0, 0) → r0.rlim y = some (0, 0) := by
        intro y hy
        by_cases hxy : y = x
        · subst hxy
          unfold kSetrlimit at e
          rw [hy] at e
          simp only [] at e
          split at e
          · cases e
          · split at e
            · cases e
            · rename_i h1 h2
              rw [d] at h2
              have : l = 0 ∧ m = 0 := by
                have : ¬ m > 0 := fun hm => h2 ⟨hm, rfl⟩
                omega
              have e := (Option.some.inj e).symm
              rw [e, this.1, this.2]
              exact if_pos rfl
        · rw [kSetrlimit_some e]
          simp only []
          rw [if_neg hxy]; exact hy
      have e2 := kSetrlimit_some e
      refine ⟨?_, ?_, ?_, ?_, fun s => ⟨key _ (f s).1, key _ (f s).2, key _ (f s).3, ?_⟩⟩
      · rw [e2]; exact ⟨a.1, a.2, a.3, a.4, a.5, a.6⟩
      · rw [e2]; exact b
      · rw [e2]; exact c
      · rw [e2]; exact d
      · rw [e2]; exact (f s).4
  exact ⟨this.runs, this.groups, this.root, this.cap, this.shut⟩

/-- C61, the two together: a process that was root and was jailed never has a root id again. -/
theorem c61_never_root (w : World) (account dir : Option Bytes) (p : Proc) (hf : Fair w p) (h0 : p.ruid = 0 ∨ p.euid = 0 ∨ p.suid = 0)
    (limits : Bool) (k : K) (h : jail w account dir limits p = (true, k)) (q : Proc) (hq : Later k.p q) :
    q.ruid ≠ 0 ∧ q.euid ≠ 0 ∧ q.suid ≠ 0 ∧ q.rgid ≠ 0 ∧ q.egid ≠ 0 ∧ q.sgid ≠ 0 ∧ q.root = k.p.root ∧ (limits = true → Shut q) := by
  obtain ⟨uid, gid, _, u0, g0, r, _, _, _, s, _, _, c⟩ := c61_jailed w account dir limits p hf k h
  obtain ⟨a, _, rt, _, f⟩ := c61_irrevocable uid gid k.p r (c h0) q hq
  exact ⟨by rw [a.ruid]; exact u0, by rw [a.euid]; exact u0, by rw [a.suid]; exact u0, by rw [a.rgid]; exact g0, by rw [a.egid]; exact g0,
    by rw [a.sgid]; exact g0, rt, fun hl => f (s hl)⟩

/-- C61: processes that run at the same time under derived identities do not share one. -/
theorem c61_distinct (w w' : World) (h : w.pid < 1000000000) (h' : w'.pid < 1000000000) (hne : w.pid ≠ w'.pid) (u g u' g' : Nat)
    (i : Identity w none u g) (i' : Identity w' none u' g') : u ≠ u' ∧ g ≠ g' := by
  obtain ⟨rfl, rfl⟩ := i
  obtain ⟨rfl, rfl⟩ := i'
  omega

theorem bind_def {α β} (x : M α) (f : α → M β) (k : K) : (x >>= f) k = M.bind x f k := rfl
theorem pure_def {α} (a : α) (k : K) : (pure a : M α) k = (some a, k) := rfl

/-- C61: a privileged process on a kernel without faults, with a known unprivileged account or none, does get jailed. -/
theorem c61_succeeds (w : World) (account dir : Option Bytes) (limits : Bool) (p : Proc) (hf : ∀ n, w.faults n = .none) (hc : p.cap = true)
    (ha : ∀ a, account = some a → ∃ pw, w.passwd a = some pw ∧ pw.uid ≠ 0 ∧ pw.gid ≠ 0)
    (hl : ∀ r, ∃ soft hard, p.rlim r = some (soft, hard) ∧ soft ≤ hard) : (jail w account dir limits p).1 = true := by
  obtain ⟨s1, h1, e1, l1⟩ := hl .nofile
  obtain ⟨s2, h2, e2, l2⟩ := hl .nproc
  obtain ⟨s3, h3, e3, l3⟩ := hl .core
  obtain ⟨s4, h4, e4, l4⟩ := hl .as
  obtain ⟨s5, h5, e5, l5⟩ := hl .data
  have t : ∃ pw u g, target w account ⟨p, 0, []⟩ = (some (pw, u, g), ⟨p, 0, []⟩) := by
    cases account with
    | none => exact ⟨_, _, _, rfl⟩
    | some a =>
      obtain ⟨pw, h, h1, h2⟩ := ha a rfl
      refine ⟨some pw, pw.uid, pw.gid, ?_⟩
      simp [target, h, h1, h2, pure_def]
  obtain ⟨pw, u, g, t⟩ := t
  cases pw <;> cases dir <;> cases limits <;>
  simp [jail, body, bind_def, pure_def, M.bind, t, dropGid, must, call, hf, kSetgid, hc, look, failIf, dropGroups, kSetgroups, enter, kChroot, dropUid,
    kSetuid, limit, zero, callLim, e1, e2, e3, e4, kSetrlimit, environ, setenv, undump, allocLimit, limitMemory] <;> grind
/-- A root process on a system with one account, process number 4242. -/
def sampleWorld (f : Nat → Fault) : World where
  pid := 4242
  passwd := fun a => if a = b!"nobody" then some ⟨b!"nobody", 65534, 65534, b!"/", b!"/bin/false"⟩
    else if a = b!"toor" then some ⟨b!"toor", 0, 5, b!"/", b!"/bin/sh"⟩ else none
  grouplist := fun _ g => [g, 7]
  faults := f

def rootProc : Proc where
  ruid := 0
  euid := 0
  suid := 0
  rgid := 0
  egid := 0
  sgid := 0
  groups := [0, 1]
  cap := true
  cwd := b!"/srv"
  root := b!"/"
  rlim := fun _ => some (1000000000, 2000000000)
  dumpable := true
  env := fun _ => none
  allocLimit := none

example : (jail (sampleWorld fun _ => .none) none (some b!"/empty") true rootProc).1 = true ∧
    (jail (sampleWorld fun _ => .none) (some b!"nobody") none false rootProc).1 = true ∧
    (jail (sampleWorld fun _ => .none) (some b!"toor") none false rootProc).1 = false ∧
    (jail (sampleWorld fun n => if n = 4 then .lie else .none) none (some b!"/empty") true rootProc).1 = false ∧
    (jail (sampleWorld fun n => if n = 1 then .fail else .none) none (some b!"/empty") true rootProc).1 = false := by
  decide +kernel

example : Fair (sampleWorld fun n => if n = 4 then .lie else .none) rootProc := .inr ⟨rfl, rfl⟩

/-- Without root's user id before, capabilities are not lost by a change of user id: that the process was root is needed. -/
theorem c61_needs_root : ∃ p k, p.cap = true ∧ jail (sampleWorld fun _ => .none) none none false p = (true, k) ∧ k.p.cap = true :=
  ⟨{ rootProc with ruid := 5, euid := 5, suid := 5 }, _, rfl, rfl, by decide⟩

/-- The hard memory limit is left alone when the soft one is already low, so the process may raise it again. -/
theorem c61_memory_soft_only : ∃ p k q, jail (sampleWorld fun _ => .none) none none true p = (true, k) ∧
    kSetrlimit k.p .as 2000000000 2000000000 = some q ∧ q.rlim .as = some (2000000000, 2000000000) :=
  ⟨{ rootProc with rlim := fun _ => some (1000, 2000000000) }, _, _, rfl, rfl, rfl⟩

end Jail
