import Verif.Main.Child
import Verif.Pipe.Props
import Verif.Path.Props
import Verif.Jail.Props
import Verif.ConnInfo.Props
/-
C70: as whom, with which environment and with which input the program runs.
-/
namespace Main
open Io Pipe Proxy Jail.Spec
open Pipe.Spec (Frame Header)

/-- What a descriptor delivers to the program's process before the program's own
input: the endpoints, then the account record. -/
structure Preamble (s : Bytes) (e : Ends) (rec tl : Bytes) : Prop where
  frames : ∃ f1 f2 f3 f4 f5, Frame f1 e.localip ∧ Frame f2 [e.localport.1, e.localport.2] ∧ Frame f3 e.remoteip ∧
    Frame f4 [e.remoteport.1, e.remoteport.2] ∧ Frame f5 rec ∧ s = f1 ++ (f2 ++ (f3 ++ (f4 ++ (f5 ++ tl))))
  lip : e.localip.length = 16
  rip : e.remoteip.length = 16

theorem frame_unique {f m f' m' s s' : Bytes} (h : Frame f m) (h' : Frame f' m') (e : f ++ s = f' ++ s') : m = m' ∧ s = s' := by
  obtain ⟨a, ⟨a1, a2⟩, rfl⟩ := h
  obtain ⟨b, ⟨b1, b2⟩, rfl⟩ := h'
  rw [List.append_assoc, List.append_assoc] at e
  obtain ⟨rfl, e2⟩ := List.append_inj e (by rw [a1, b1])
  exact List.append_inj e2 (by rw [← a2, ← b2])

/-- A stream has at most one reading. -/
theorem preamble_unique {s rec tl rec' tl' : Bytes} {e e' : Ends} (h : Preamble s e rec tl) (h' : Preamble s e' rec' tl') :
    e = e' ∧ rec = rec' ∧ tl = tl' := by
  obtain ⟨f1, f2, f3, f4, f5, a1, a2, a3, a4, a5, rfl⟩ := h.frames
  obtain ⟨g1, g2, g3, g4, g5, b1, b2, b3, b4, b5, x⟩ := h'.frames
  obtain ⟨x1, x⟩ := frame_unique a1 b1 x
  obtain ⟨x2, x⟩ := frame_unique a2 b2 x
  obtain ⟨x3, x⟩ := frame_unique a3 b3 x
  obtain ⟨x4, x⟩ := frame_unique a4 b4 x
  obtain ⟨x5, x⟩ := frame_unique a5 b5 x
  refine ⟨?_, x5, x⟩
  simp at x2 x4
  cases e; cases e'
  simp only [Ends.mk.injEq] at *
  exact ⟨x1, Prod.ext x2.1 x2.2, x3, Prod.ext x4.1 x4.2⟩

theorem two {b : Bytes} (h : b.length = 2) : b = [(portOf b).1, (portOf b).2] := by
  match b, h with
  | [x, y], _ => rfl

theorem readEnds_sound {fd fd' : RFd} {e : Ends} (h : readEnds fd = some (some (e, fd'))) :
    e.localip.length = 16 ∧ e.remoteip.length = 16 ∧
    ∃ f1 f2 f3 f4, Frame f1 e.localip ∧ Frame f2 [e.localport.1, e.localport.2] ∧ Frame f3 e.remoteip ∧
      Frame f4 [e.remoteport.1, e.remoteport.2] ∧ fd.src = f1 ++ (f2 ++ (f3 ++ (f4 ++ fd'.src))) := by
  unfold readEnds at h
  have key : ∀ {fd fd' : RFd} {n : Nat} {r : Int} {x : Bytes}, pipe_readall fd n = some (r, x, fd') → r ≠ -1 →
      x.length = n ∧ ∃ f, Frame f x ∧ fd.src = f ++ fd'.src := by
    intro fd fd' n r x hr hne
    obtain ⟨-, h1, h2⟩ := c18_readall fd fd' n r x hr
    rcases h2 with h2 | h2
    · exact (h1 h2).2
    · exact absurd h2 hne
  split at h
  · cases h
  rename_i r1 lip fd1 h1
  split at h
  · cases h
  rename_i n1
  split at h
  · cases h
  rename_i r2 lport fd2 h2
  split at h
  · cases h
  rename_i n2
  split at h
  · cases h
  rename_i r3 rip fd3 h3
  split at h
  · cases h
  rename_i n3
  split at h
  · cases h
  rename_i r4 rport fd4 h4
  split at h
  · cases h
  rename_i n4
  cases h
  obtain ⟨l1, f1, a1, e1⟩ := key h1 n1
  obtain ⟨l2, f2, a2, e2⟩ := key h2 n2
  obtain ⟨l3, f3, a3, e3⟩ := key h3 n3
  obtain ⟨l4, f4, a4, e4⟩ := key h4 n4
  refine ⟨l1, l3, f1, f2, f3, f4, a1, ?_, a3, ?_, ?_⟩
  · rw [← two l2]; exact a2
  · rw [← two l4]; exact a4
  · rw [e1, e2, e3, e4]

theorem exportEnds_eq (C : IpCodec) (env : ConnInfo.Env) (e : Ends) (p : Jail.Proc) :
    ∃ env', exportEnds C env e p = .ok { p with env := envFun env' } ∧
      (∀ n, n ∉ ConnInfo.names → envFun env' n = envFun env n) ∧
      ∀ n ∈ ConnInfo.names, envFun env' n = some (ConnInfo.textOf C e n) := by
  obtain ⟨env', h1, h2, h3⟩ := ConnInfo.c65_set C (List.replicate 6 0) (by simp) true true true true env e
  have hg : ∀ (env : ConnInfo.Env) n, ConnInfo.getenv env n = (envFun env n).map (cstr · []) := by
    intro env n; simp [ConnInfo.getenv, envFun]; rfl
  have inj : ∀ a b : Option Bytes, a.map (cstr · []) = b.map (cstr · []) → a = b := by
    intro a b hab
    cases a <;> cases b <;> simp [cstr] at hab ⊢
    exact hab
  refine ⟨env', ?_, ?_, ?_⟩
  · unfold exportEnds; rw [h1]; rfl
  · intro n hn
    apply inj
    rw [← hg, ← hg, h2 n hn]
  · intro n hn
    apply inj
    rw [← hg, h3 n true (by simpa [ConnInfo.names] using hn)]
    rfl

/-- The account text of a record. -/
theorem accountText_record (s : Bytes) (hs : NoNul s) : accountText (record s) = .ok s := by
  unfold accountText record
  have : wr (s ++ [0]) ((s ++ [0]).length - 1) 0 = .ok (cstr s []) := by
    unfold wr; simp [cstr]
  rw [this]
  exact cstrOf_cstr s [] hs

theorem accountText_ok (rec : Bytes) (h : 1 ≤ rec.length) : ∃ a, accountText rec = .ok a := by
  unfold accountText
  have : wr rec (rec.length - 1) 0 = .ok (rec.set (rec.length - 1) 0) := by unfold wr; rw [if_pos (by omega)]
  rw [this]
  have hm : (0 : Byte) ∈ rec.set (rec.length - 1) 0 := by
    rw [List.mem_iff_getElem]
    exact ⟨rec.length - 1, by simp; omega, by simp⟩
  simp only [Out.ok_bind]
  generalize rec.set (rec.length - 1) 0 = m at hm
  induction m with
  | nil => simp at hm
  | cons b m ih =>
    rw [cstrOf]
    split
    · exact ⟨_, rfl⟩
    · rename_i hb
      obtain ⟨a, ha⟩ := ih (by simpa [Ne.symm hb] using hm)
      exact ⟨b :: a, by rw [ha]; rfl⟩

/-- What is said about the identity the program gets. -/
structure RunsAs (w : Jail.World) (account : Bytes) (q : Jail.Proc) : Prop where
  ids : ∃ uid gid, Identity w (some account) uid gid ∧ uid ≠ 0 ∧ gid ≠ 0 ∧ Runs q uid gid ∧ Groups w (some account) gid q.groups
  env : ∃ pw, w.passwd account = some pw ∧ q.env b!"HOME" = some pw.home ∧ q.env b!"SHELL" = some pw.shell ∧
    q.env b!"USER" = some pw.name ∧ q.env b!"LOGNAME" = some pw.name

/-- setuid() and setgid() report success only if they took effect. -/
def Honest (w : Jail.World) : Prop := ∀ n, w.faults n ≠ .lie

theorem dropTo_some {w : Jail.World} (hw : Honest w) {a : Bytes} {p q : Jail.Proc} (h : dropTo w a p = some q) :
    RunsAs w a q ∧ p.cap = true ∧ (p.ruid = 0 ∨ p.euid = 0 ∨ p.suid = 0 → q.cap = false) ∧
    (∀ n, n ∉ [b!"HOME", b!"SHELL", b!"USER", b!"LOGNAME"] → q.env n = p.env n) := by
  unfold dropTo at h
  split at h
  · rename_i k hk
    cases h
    obtain ⟨uid, gid, i, u0, g0, r, g, _, _, _, _, c1, c2⟩ := Jail.c61_jailed w (some a) none false p (.inl hw) k hk
    exact ⟨⟨⟨uid, gid, i, u0, g0, r, g⟩, Jail.c61_environment w a none false p k hk⟩, c1, c2,
      fun n hn => Jail.c61_environment_rest w (some a) none false p k hk n hn⟩
  · cases h

/-- Which account the options and the record ask for. -/
def wanted (o : Opts) (account : Bytes) : List Bytes :=
  (if o.userfromcert = true ∧ account ≠ [] then [account] else []) ++ o.user.toList

theorem become_sound {w1 w2 : Jail.World} {execs : Bool} {o : Opts} {rec a : Bytes} {p q : Jail.Proc} {fd r : RFd}
    (ha : rec.length ≤ 1 ∧ a = [] ∨ 1 < rec.length ∧ accountText rec = .ok a)
    (h : become w1 w2 execs o rec p fd = .ok (.exec q r)) :
    r = fd ∧ ∃ p1, (if o.userfromcert = true ∧ 1 < rec.length then dropTo w1 a p = some p1 else p1 = p) ∧ dropUser w2 o p1 = some q := by
  have hc : ∃ x, dropCert w1 o rec p = .ok x ∧
      ∀ p1, x = some p1 → (if o.userfromcert = true ∧ 1 < rec.length then dropTo w1 a p = some p1 else p1 = p) := by
    unfold dropCert
    rcases ha with ⟨h1, h2⟩ | ⟨h1, h2⟩
    · rw [if_pos h1]
      exact ⟨_, rfl, fun p1 e => by rw [if_neg (by omega)]; exact (Option.some.inj e).symm⟩
    · rw [if_neg (by omega), h2]
      cases hu : o.userfromcert
      · exact ⟨_, rfl, fun p1 e => by simpa [eq_comm] using e⟩
      · exact ⟨_, rfl, fun p1 e => by simpa [h1] using e⟩
  obtain ⟨x, hx, hp⟩ := hc
  unfold become at h
  rw [hx] at h
  cases x with
  | none => simp at h
  | some p1 =>
    simp only [Out.ok_bind] at h
    cases hd : dropUser w2 o p1 with
    | none => rw [hd] at h; simp at h
    | some p2 =>
      rw [hd] at h
      cases execs
      · simp at h
      · simp at h
        obtain ⟨rfl, rfl⟩ := h
        exact ⟨rfl, p1, hp p1 rfl, hd⟩

/-- C70: for every stream, every schedule of reads, every account database and all
options: if the program starts, the stream began with the endpoints and an account record (of
at most 256 bytes); the program reads exactly the rest of the stream; the four
variables TCPLOCALIP, TCPLOCALPORT, TCPREMOTEIP and TCPREMOTEPORT are the endpoints' texts; and it runs under
the account of -u if that is given, else, with -U and a record that names an account,
under that account, and otherwise with the credentials the wrapper was started with. -/
theorem c70_program (C : IpCodec) (w1 w2 : Jail.World) (hw1 : Honest w1) (hw2 : Honest w2) (execs : Bool) (o : Opts)
    (env : ConnInfo.Env) (p q : Jail.Proc) (fd r : RFd)
    (h : childMain C w1 w2 execs o env p fd = some (.ok (.exec q r))) :
    ∃ e rec, Preamble fd.src e rec r.src ∧ rec.length ≤ 256 ∧
      (∀ n ∈ ConnInfo.names, q.env n = some (ConnInfo.textOf C e n)) ∧
      (∀ n, n ∉ ConnInfo.names → n ∉ [b!"HOME", b!"SHELL", b!"USER", b!"LOGNAME"] → q.env n = envFun env n) ∧
      ∀ a, rec = record a → NoNul a →
        (∀ u, o.user = some u → RunsAs w2 u q) ∧
        (o.user = none → o.userfromcert = true → a ≠ [] → RunsAs w1 a q) ∧
        (wanted o a = [] → q = { p with env := q.env }) := by
  unfold childMain at h
  split at h
  · cases h
  · cases h
  rename_i e fd1 he
  obtain ⟨l1, l2, f1, f2, f3, f4, a1, a2, a3, a4, hs⟩ := readEnds_sound he
  obtain ⟨env', hx, hx1, hx2⟩ := exportEnds_eq C env e p
  rw [hx] at h
  simp only [readAccount] at h
  split at h
  · cases h
  rename_i rc rec n fd2 hm
  split at h
  · cases h
  rename_i hne
  obtain ⟨b1, b2, b3, b4⟩ := c18_readmax fd1 fd2 256 n rc rec hm
  obtain ⟨_, rfl, f5, a5, hs5⟩ := b3 (b4.resolve_right hne)
  have h := Option.some.inj h
  have hacc : ∃ a, (rec.length ≤ 1 ∧ a = [] ∨ 1 < rec.length ∧ accountText rec = .ok a) := by
    by_cases hl : rec.length ≤ 1
    · exact ⟨[], .inl ⟨hl, rfl⟩⟩
    · obtain ⟨a, ha⟩ := accountText_ok rec (by omega)
      exact ⟨a, .inr ⟨by omega, ha⟩⟩
  obtain ⟨a, ha⟩ := hacc
  obtain ⟨rfl, p1, hp1, hd⟩ := become_sound ha h
  have henv1 : ∀ n, n ∉ [b!"HOME", b!"SHELL", b!"USER", b!"LOGNAME"] → p1.env n = envFun env' n := by
    intro n hn
    split at hp1
    · exact (dropTo_some hw1 hp1).2.2.2 n hn
    · rw [hp1]
  have henv2 : ∀ n, n ∉ [b!"HOME", b!"SHELL", b!"USER", b!"LOGNAME"] → q.env n = envFun env' n := by
    intro n hn
    unfold dropUser at hd
    split at hd
    · rw [← Option.some.inj hd]; exact henv1 n hn
    · rw [(dropTo_some hw2 hd).2.2.2 n hn]; exact henv1 n hn
  refine ⟨e, rec, ⟨⟨f1, f2, f3, f4, f5, a1, a2, a3, a4, a5, by rw [hs, hs5]⟩, l1, l2⟩, b1, ?_, ?_, ?_⟩
  · intro n hn
    rw [henv2 n ?_, hx2 n hn]
    revert n
    decide
  · intro n hn1 hn2
    rw [henv2 n hn2, hx1 n hn1]
  · intro a' hrec hna
    subst hrec
    have hlen : (record a').length = a'.length + 1 := by simp [record]
    have hlt : 1 < (record a').length ↔ a' ≠ [] := by
      rw [hlen]; cases a' <;> simp
    have haa : a' ≠ [] → a = a' := by
      intro hne'
      have hl := hlt.mpr hne'
      rcases ha with ⟨h1, -⟩ | ⟨-, h1⟩
      · omega
      · rw [accountText_record a' hna] at h1; cases h1; rfl
    refine ⟨?_, ?_, ?_⟩
    · intro u hu
      unfold dropUser at hd
      rw [hu] at hd
      exact (dropTo_some hw2 hd).1
    · intro hu hc hne'
      unfold dropUser at hd
      rw [hu] at hd
      cases hd
      rw [if_pos ⟨hc, hlt.mpr hne'⟩, haa hne'] at hp1
      exact (dropTo_some hw1 hp1).1
    · intro hwant
      unfold wanted at hwant
      simp only [List.append_eq_nil_iff] at hwant
      obtain ⟨x1, x2⟩ := hwant
      have hu : o.user = none := by cases hu : o.user <;> simp [hu] at x2 ⊢
      unfold dropUser at hd
      rw [hu] at hd
      cases hd
      rw [if_neg] at hp1
      · subst hp1; rfl
      · rintro ⟨y1, y2⟩
        rw [if_pos ⟨y1, hlt.mp y2⟩] at x1
        simp at x1

/-- C70: a program that was put under an account by a wrapper started by root cannot
get root's privileges back by any sequence of credential calls. -/
theorem c70_never_root_partial (C : IpCodec) (w1 w2 : Jail.World) (hw1 : Honest w1) (hw2 : Honest w2) (execs : Bool) (o : Opts)
    (env : ConnInfo.Env) (p q : Jail.Proc) (fd r : RFd) (h0 : p.ruid = 0 ∨ p.euid = 0 ∨ p.suid = 0)
    (h : childMain C w1 w2 execs o env p fd = some (.ok (.exec q r)))
    (e : Ends) (a : Bytes) (ha : NoNul a) (hs : Preamble fd.src e (record a) r.src) (hw : wanted o a ≠ []) (q' : Jail.Proc)
    (hq : Later q q') : q'.ruid ≠ 0 ∧ q'.euid ≠ 0 ∧ q'.suid ≠ 0 ∧ q'.rgid ≠ 0 ∧ q'.egid ≠ 0 ∧ q'.sgid ≠ 0 := by
  have key : ∃ w acc, RunsAs w acc q ∧ q.cap = false := by
    unfold childMain at h
    split at h
    · cases h
    · cases h
    rename_i e1 fd1 he
    obtain ⟨env', hx, -, -⟩ := exportEnds_eq C env e1 p
    obtain ⟨l1, l2, f1, f2, f3, f4, a1, a2, a3, a4, hs1⟩ := readEnds_sound he
    rw [hx] at h
    simp only [readAccount] at h
    split at h
    · cases h
    rename_i rc rec n fd2 hm
    split at h
    · cases h
    rename_i hne
    obtain ⟨b1, b2, b3, b4⟩ := c18_readmax fd1 fd2 256 n rc rec hm
    obtain ⟨_, rfl, f5, a5, hs5⟩ := b3 (b4.resolve_right hne)
    have h := Option.some.inj h
    have hl1 : 1 < rec.length ∨ rec.length ≤ 1 := by omega
    have hrf : r = fd2 := by
      rcases hl1 with hl | hl
      · obtain ⟨a', ha'⟩ := accountText_ok rec (by omega)
        exact (become_sound (.inr ⟨hl, ha'⟩) h).1
      · exact (become_sound (.inl ⟨hl, rfl⟩) h).1
    subst hrf
    obtain ⟨-, rfl, -⟩ := preamble_unique hs ⟨⟨f1, f2, f3, f4, f5, a1, a2, a3, a4, a5, by rw [hs1, hs5]⟩, l1, l2⟩
    have hlt : 1 < (record a).length ↔ a ≠ [] := by
      rw [show (record a).length = a.length + 1 by simp [record]]; cases a <;> simp
    have hacc : (record a).length ≤ 1 ∧ a = [] ∨ 1 < (record a).length ∧ accountText (record a) = .ok a := by
      by_cases hn : a = []
      · exact .inl ⟨by simp [record, hn], hn⟩
      · exact .inr ⟨hlt.mpr hn, accountText_record a ha⟩
    obtain ⟨-, p1, hp1, hd⟩ := become_sound hacc h
    have h1 : (p1.ruid = 0 ∨ p1.euid = 0 ∨ p1.suid = 0) ∨ p1.cap = false := by
      split at hp1
      · exact .inr ((dropTo_some hw1 hp1).2.2.1 h0)
      · rw [hp1]; exact .inl h0
    unfold dropUser at hd
    split at hd
    · rename_i hu
      cases hd
      have : o.userfromcert = true ∧ a ≠ [] := by
        false_or_by_contra
        rename_i hc
        apply hw
        unfold wanted
        rw [if_neg hc, hu]; rfl
      rw [if_pos ⟨this.1, hlt.mpr this.2⟩] at hp1
      have := dropTo_some hw1 hp1
      exact ⟨w1, a, this.1, this.2.2.1 h0⟩
    · rename_i u hu
      have := dropTo_some hw2 hd
      rcases h1 with h1 | h1
      · exact ⟨w2, u, this.1, this.2.2.1 h1⟩
      · rw [h1] at this; simp at this
  obtain ⟨w, acc, hr, hc⟩ := key
  obtain ⟨uid, gid, -, u0, g0, hruns, -⟩ := hr.ids
  obtain ⟨x, -⟩ := Jail.c61_irrevocable uid gid q hruns hc q' hq
  exact ⟨by rw [x.ruid]; exact u0, by rw [x.euid]; exact u0, by rw [x.suid]; exact u0, by rw [x.rgid]; exact g0,
    by rw [x.egid]; exact g0, by rw [x.sgid]; exact g0⟩

/-- C70: -U and -u together: once the certificate's account was taken, the process has
no privilege left to change to the one of -u, and the program is never started. -/
theorem c70_both (w1 w2 : Jail.World) (hw1 : Honest w1) (hw2 : Honest w2) (execs : Bool) (o : Opts) (p : Jail.Proc)
    (h0 : p.ruid = 0 ∨ p.euid = 0 ∨ p.suid = 0) (fd : RFd) (a u : Bytes) (ha : NoNul a) (hne : a ≠ [])
    (hc : o.userfromcert = true) (hu : o.user = some u) :
    become w1 w2 execs o (record a) p fd = .ok (.exit 111) := by
  have hl : ¬ (record a).length ≤ 1 := by
    cases a with
    | nil => exact absurd rfl hne
    | cons => simp [record]
  unfold become dropCert
  rw [if_neg hl, accountText_record a ha]
  simp only [Out.ok_bind, hc]
  cases hd : dropTo w1 a p with
  | none => rfl
  | some p1 =>
    have h1 := (dropTo_some hw1 hd).2.2.1 h0
    have : dropUser w2 o p1 = none := by
      unfold dropUser
      rw [hu]
      cases hd2 : dropTo w2 u p1 with
      | none => simp [hd2]
      | some q => have := (dropTo_some hw2 hd2).2.1; rw [h1] at this; cases this
    simp [this]

/-- C70: if an account cannot be taken (unknown, root's, or a call fails) the program is
not started. -/
theorem c70_refused (w1 w2 : Jail.World) (execs : Bool) (o : Opts) (p : Jail.Proc) (fd : RFd) (a : Bytes) (ha : NoNul a)
    (h : (o.userfromcert = true ∧ a ≠ [] ∧ dropTo w1 a p = none) ∨ (∃ u, o.user = some u ∧ ∀ p1, dropTo w2 u p1 = none)) :
    become w1 w2 execs o (record a) p fd = .ok (.exit 111) := by
  have hl : (record a).length ≤ 1 ↔ a = [] := by
    cases a <;> simp [record]
  unfold become dropCert
  rcases h with ⟨hc, hne, hd⟩ | ⟨u, hu, hd⟩
  · rw [if_neg (by rw [hl]; exact hne), accountText_record a ha]
    simp [hc, hd]
  · have hdu : ∀ p1, dropUser w2 o p1 = none := by
      intro p1; unfold dropUser; rw [hu]; exact hd p1
    split
    · simp [hdu]
    · rw [accountText_record a ha]
      simp only [Out.ok_bind]
      split
      · simp [hdu]
      · cases hd1 : dropTo w1 a p <;> simp [hdu, hd1]

theorem readEnds_complete (fd : RFd) (he : ∀ e, .err e ∉ fd.evs) (e : Ends) (f1 f2 f3 f4 tl : Bytes) (h1 : Frame f1 e.localip)
    (h2 : Frame f2 [e.localport.1, e.localport.2]) (h3 : Frame f3 e.remoteip) (h4 : Frame f4 [e.remoteport.1, e.remoteport.2])
    (l1 : e.localip.length = 16) (l3 : e.remoteip.length = 16) (hs : fd.src = f1 ++ (f2 ++ (f3 ++ (f4 ++ tl)))) :
    readEnds fd = none ∨ ∃ evs, readEnds fd = some (some (e, ⟨tl, evs⟩)) ∧ ∀ e, .err e ∉ evs := by
  unfold readEnds
  have k1 := c17_readall fd f1 _ _ h1 (by rw [l1]; decide) hs he
  rw [l1] at k1
  rcases k1 with k1 | ⟨v1, k1, g1⟩
  · left; rw [k1]
  rw [k1]
  simp only [show ¬ ((0 : Int) = -1) by decide, if_false]
  rcases c17_readall ⟨_, v1⟩ f2 _ _ h2 (by simp [LIMIT]) rfl g1 with k2 | ⟨v2, k2, g2⟩
  · left; rw [show pipe_readall _ 2 = none from k2]
  rw [show pipe_readall _ 2 = some _ from k2]
  simp only [show ¬ ((0 : Int) = -1) by decide, if_false]
  have k3 := c17_readall ⟨f3 ++ (f4 ++ tl), v2⟩ f3 _ (f4 ++ tl) h3 (by rw [l3]; decide) rfl g2
  rw [l3] at k3
  rcases k3 with k3 | ⟨v3, k3, g3⟩
  · left; rw [k3]
  rw [k3]
  simp only [show ¬ ((0 : Int) = -1) by decide, if_false]
  rcases c17_readall ⟨_, v3⟩ f4 _ _ h4 (by simp [LIMIT]) rfl g3 with k4 | ⟨v4, k4, g4⟩
  · left; rw [show pipe_readall _ 2 = none from k4]
  rw [show pipe_readall _ 2 = some _ from k4]
  simp only [show ¬ ((0 : Int) = -1) by decide, if_false]
  right
  exact ⟨v4, rfl, g4⟩

/-- C70: the process that should become the program becomes it, or ends with status 111; so the
wrapper's own exit status (C63) tells that the program did not run. -/
theorem c70_exits (C : IpCodec) (w1 w2 : Jail.World) (execs : Bool) (o : Opts) (env : ConnInfo.Env) (p : Jail.Proc) (fd : RFd) :
    (∀ n, childMain C w1 w2 execs o env p fd = some (.ok (.exit n)) → n = 111) ∧
    (execs = false → ∀ q r, childMain C w1 w2 execs o env p fd ≠ some (.ok (.exec q r))) := by
  have key : ∀ rec p fd, (∀ n, become w1 w2 execs o rec p fd = .ok (.exit n) → n = 111) ∧
      (execs = false → ∀ q r, become w1 w2 execs o rec p fd ≠ .ok (.exec q r)) := by
    intro rec p fd
    unfold become
    cases dropCert w1 o rec p with
    | ub => exact ⟨fun n h => (by cases h), fun _ q r h => (by cases h)⟩
    | ok x =>
      cases x with
      | none => exact ⟨fun n h => (by cases h; rfl), fun _ q r h => (by cases h)⟩
      | some p1 =>
        simp only [Out.ok_bind]
        cases dropUser w2 o p1 with
        | none => exact ⟨fun n h => (by cases h; rfl), fun _ q r h => (by cases h)⟩
        | some p2 => cases execs
                     · exact ⟨fun n h => (by cases h; rfl), fun _ q r h => (by cases h)⟩
                     · exact ⟨fun n h => (by cases h), nofun⟩
  unfold childMain
  split
  · exact ⟨nofun, fun _ => nofun⟩
  · exact ⟨fun n h => (by cases h; rfl), fun _ q r h => (by cases h)⟩
  · split
    · exact ⟨nofun, fun _ => nofun⟩
    · unfold readAccount
      split
      · exact ⟨nofun, fun _ => nofun⟩
      · split
        · exact ⟨fun n h => (by cases h; rfl), fun _ q r h => (by cases h)⟩
        · obtain ⟨k1, k2⟩ := key _ _ _
          exact ⟨fun n h => k1 n (Option.some.inj h), fun he q r h => k2 he q r (Option.some.inj h)⟩

/-- C70: when the preamble arrives, reading does not fail and no account has to be taken
or taking it succeeds, the program does start (or its process is still waiting for the
preamble). -/
theorem c70_starts (C : IpCodec) (w1 w2 : Jail.World) (o : Opts) (env : ConnInfo.Env) (p : Jail.Proc) (fd : RFd)
    (he : ∀ e, .err e ∉ fd.evs) (e : Ends) (a tl : Bytes) (ha : NoNul a) (hl : a.length ≤ 255)
    (hs : Preamble fd.src e (record a) tl)
    (h1 : o.userfromcert = true → a ≠ [] → ∀ x, ∃ p1, dropTo w1 a { p with env := x } = some p1)
    (h2 : ∀ u, o.user = some u → ∀ x, (o.userfromcert = false ∨ a = []) ∧ ∃ p2, dropTo w2 u { p with env := x } = some p2) :
    childMain C w1 w2 true o env p fd = none ∨
      ∃ q evs, childMain C w1 w2 true o env p fd = some (.ok (.exec q ⟨tl, evs⟩)) := by
  obtain ⟨⟨f1, f2, f3, f4, f5, a1, a2, a3, a4, a5, hsrc⟩, l1, l3⟩ := hs
  unfold childMain
  rcases readEnds_complete fd he e f1 f2 f3 f4 _ a1 a2 a3 a4 l1 l3 hsrc with h | ⟨evs, h, hev⟩
  · left; rw [h]
  rw [h]
  obtain ⟨env', hx, -, -⟩ := exportEnds_eq C env e p
  simp only [hx, readAccount]
  rcases c17_readmax ⟨f5 ++ tl, evs⟩ f5 (record a) tl 256 a5 (by simp [record]; omega) (by decide) rfl hev with h | ⟨evs', h, -⟩
  · left; rw [h]
  rw [h]
  right
  simp only [show ¬ ((0 : Int) = -1) by decide, if_false]
  have hlt : (record a).length ≤ 1 ↔ a = [] := by cases a <;> simp [record]
  unfold become dropCert
  have hend : ∀ p1, (∀ u, o.user = some u → ∃ p2, dropTo w2 u p1 = some p2) →
      ∃ q, dropUser w2 o p1 = some q := by
    intro p1 hp
    unfold dropUser
    cases hu : o.user with
    | none => exact ⟨p1, rfl⟩
    | some u => exact hp u hu
  by_cases hne : a = []
  · rw [if_pos (hlt.mpr hne)]
    obtain ⟨q, hq⟩ := hend { p with env := envFun env' } (fun u hu => (h2 u hu _).2)
    exact ⟨q, evs', by simp [hq]⟩
  · rw [if_neg (by rw [hlt]; exact hne), accountText_record a ha]
    cases hc : o.userfromcert with
    | false =>
      obtain ⟨q, hq⟩ := hend { p with env := envFun env' } (fun u hu => (h2 u hu _).2)
      exact ⟨q, evs', by simp [hq]⟩
    | true =>
      obtain ⟨p1, hp1⟩ := h1 hc hne (envFun env')
      obtain ⟨q, hq⟩ := hend p1 (fun u hu => by
        rcases (h2 u hu (envFun env')).1 with h | h
        · rw [hc] at h; cases h
        · exact absurd h hne)
      exact ⟨q, evs', by simp [hp1, hq]⟩

/-- C70, the record: a usable field `v` of the certificate is reported up to its first
'@'; a field that was not found ends the session. -/
theorem c70_reported (v rest : Bytes) (hv : NoNul v) (hb : (cstr v rest).length = 256) (status : Status) :
    reported true status (cstr v rest) = .ok (if status = 0 then none else some (v.takeWhile (· != c! '@'))) := by
  have hw : ∃ rest', wr (cstr v rest) 255 0 = .ok (cstr v rest') := by
    unfold wr
    rw [if_pos (by omega)]
    have hvl : v.length + 1 + rest.length = 256 := by simp [cstr] at hb; omega
    by_cases hr : v.length = 255
    · refine ⟨[], ?_⟩
      have : rest = [] := List.length_eq_zero_iff.mp (by omega)
      subst this
      rw [cstr, List.set_append_right _ _ (by omega), hr]
      rfl
    · refine ⟨rest.set (254 - v.length) 0, ?_⟩
      rw [cstr, List.set_append_right _ _ (by omega)]
      obtain ⟨k, hk⟩ : ∃ k, 255 - v.length = k + 1 := ⟨254 - v.length, by omega⟩
      rw [hk, List.set_cons_succ, show k = 254 - v.length by omega]
      rfl
  obtain ⟨rest', hw⟩ := hw
  unfold reported
  rw [hw]
  simp only [Out.ok_bind, if_true]
  split
  · rfl
  · obtain ⟨r, h1, h2⟩ := Path.c12_prefix v rest' hv
    rw [h1]
    simp only [Out.ok_bind]
    rw [cstrOf_cstr]
    · rfl
    · intro b hb
      exact hv b (List.takeWhile_subset _ hb)

/-- Without -U nothing is reported: the buffer is never filled. -/
theorem c70_no_field (status : Status) : reported false status (List.replicate 256 0) = .ok (some []) := by
  unfold reported wr
  simp only [List.length_replicate, Nat.reduceLT, if_true]
  rfl

/-- C70 is not enforced when the field is there but names no account: the text begins
with '@', or the TLS library could not use it (status -1, which passes the test for 0,
and the buffer stays empty). The record is then empty, no account is taken, and the
program runs with the privileges of the wrapper although -U was given. -/
theorem c70_empty_field (w1 w2 : Jail.World) (p : Jail.Proc) (fd : RFd) (v rest : Bytes) (hv : NoNul v)
    (hb : (cstr v rest).length = 256) (status : Status) (hs : status ≠ 0) (h : v = [] ∨ v.head? = some (c! '@')) :
    reported true status (cstr v rest) = .ok (some []) ∧
      become w1 w2 true ⟨true, none⟩ (record []) p fd = .ok (.exec p fd) := by
  refine ⟨?_, rfl⟩
  rw [c70_reported v rest hv hb, if_neg hs]
  rcases h with rfl | h
  · rfl
  · cases v with
    | nil => cases h
    | cons b v =>
      simp only [List.head?_cons, Option.some.injEq] at h
      subst h
      rfl

/-- the library could not use the field; the wrapper was started by root -/
example : reported true (-1) (List.replicate 256 0) = .ok (some []) ∧
    ∃ q r, become (Jail.sampleWorld fun _ => .none) (Jail.sampleWorld fun _ => .none) true ⟨true, none⟩ (record []) Jail.rootProc ⟨[], []⟩ =
      .ok (.exec q r) ∧ q.euid = 0 ∧ q.cap = true :=
  ⟨by decide +kernel, Jail.rootProc, ⟨[], []⟩, rfl, rfl, rfl⟩

/-- a usable field -/
example : reported true 1 (cstr b!"nobody@example.org" (List.replicate 237 0)) = .ok (some b!"nobody") := by decide +kernel

/-- a stream that meets `Preamble`, with two bytes for the program -/
def sampleEnds : Ends := ⟨v4prefix ++ [10, 0, 0, 1], (0, 25), v4prefix ++ [10, 0, 0, 2], (3, 4)⟩
def sampleStream (a : Bytes) : Bytes :=
  uint64_pack 16 ++ sampleEnds.localip ++ uint64_pack 2 ++ [0, 25] ++ uint64_pack 16 ++ sampleEnds.remoteip ++
    uint64_pack 2 ++ [3, 4] ++ uint64_pack (record a).length ++ record a ++ [104, 105]

example : Preamble (sampleStream b!"nobody") sampleEnds (record b!"nobody") [104, 105] where
  frames := ⟨_, _, _, _, _, ⟨uint64_pack 16, ⟨rfl, by decide⟩, rfl⟩, ⟨uint64_pack 2, ⟨rfl, by decide⟩, rfl⟩, ⟨uint64_pack 16, ⟨rfl, by decide⟩, rfl⟩,
    ⟨uint64_pack 2, ⟨rfl, by decide⟩, rfl⟩, ⟨uint64_pack 7, ⟨rfl, by decide⟩, rfl⟩, by decide +kernel⟩
  lip := rfl
  rip := rfl

/-- The program is started as the certificate's account, whose ids are 65534, and reads what follows the preamble. -/
def summary : Option (Out Fate) → Option (Nat × Nat × Bytes × Option Bytes)
  | some (.ok (.exec q r)) => some (q.euid, q.egid, r.src, q.env b!"TCPREMOTEIP")
  | _ => none

example : summary (childMain cCodec (Jail.sampleWorld fun _ => .none) (Jail.sampleWorld fun _ => .none) true ⟨true, none⟩ [] Jail.rootProc
    ⟨sampleStream b!"nobody", List.replicate 40 (.data 3)⟩) = some (65534, 65534, [104, 105], some b!"10.0.0.2") := by decide +kernel

/-- and not at all if there is no such account -/
example : summary (childMain cCodec (Jail.sampleWorld fun _ => .none) (Jail.sampleWorld fun _ => .none) true ⟨true, none⟩ [] Jail.rootProc
    ⟨sampleStream b!"nobodx", List.replicate 40 (.data 3)⟩) = none := by decide +kernel

end Main
