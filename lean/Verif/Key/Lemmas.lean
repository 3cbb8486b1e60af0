import Verif.Key.Spec
import Verif.Pipe.Props
import Verif.Pem.Props
import Verif.Path.Props
import Verif.Ec.Props
/-
A predicate-transformer for the key process: from phase `p`, the code `m` follows
the protocol and ends in `Q`.
-/
namespace Key
open Io Pipe Pipe.Spec Spec

/-- What the parameters are trusted for: sizes. -/
structure Lawful (p : P) : Prop where
  certfn : p.certfn.length = 1024
  loads : ∀ l ∈ p.loads, ∀ fn, (l.env fn).line0.length = 65 ∧
    (∀ n d, (l.env fn).data n = some d → d.length = n) ∧
    ∀ b n, (l.env fn).stat = some (b, n) → (n + 1 ≤ (l.env fn).r1.length ∧ n + 1 ≤ (l.env fn).r2.length) ∧ n + 1 < 2 ^ 63
  sk : p.sk.length = 66
  pk : p.pk.length = 133
  data : p.data.length = 2048
  ec : p.ec.Lawful
  sign : ∀ sec h d sig, p.doSign sec h d = .ok sig → sig.length ≤ 2048
  prf : ∀ st i n l x, (p.prf st i n l x).length = n

/-- An external function was called outside its contract, by the last action. -/
def Bad (p : P) (l : List Act) : Prop :=
  ∃ l' a, l = l' ++ [a] ∧ match a with
    | .sign sec h d => p.doSign sec h d = .ub
    | .prf label _ => 0 ∉ label
    | .decrypt t v x => ∃ st, p.dec st t v x = .ub ∨
        ∃ st' raw y, p.dec st t v x = .ok (st', some (raw, y)) ∧ ¬ (-64 ≤ raw ∧ raw + y.length ≤ 16709)
    | .encrypt t v x => ∃ st, p.enc st t v x = .ub ∨
        ∃ st' raw y, p.enc st t v x = .ok (st', raw, y) ∧ ¬ (-64 ≤ raw ∧ raw + y.length ≤ 16709)
    | _ => False

/-- The log is a protocol run up to `q`; the requests are a prefix of the input, the
answers a prefix of the output. -/
structure Near (nj : Bool) (src out : Bytes) (s : S) (q : Phase) : Prop where
  trace : Trace nj s.log q
  inp : ∃ f tl, Frames f (gots s.log) ∧ src = f ++ tl
  out : ∃ g tl, Answers g s.log ∧ s.out.out = out ++ g ++ tl

/-- … and exactly that was read and written. -/
structure At (nj : Bool) (src out : Bytes) (s : S) (q : Phase) : Prop where
  trace : Trace nj s.log q
  inp : ∃ f, Frames f (gots s.log) ∧ src = f ++ s.inp.src
  out : ∃ g, Answers g s.log ∧ s.out.out = out ++ g

theorem At.near {nj src out s q} (h : At nj src out s q) : Near nj src out s q :=
  ⟨h.trace, by obtain ⟨f, h1, h2⟩ := h.inp; exact ⟨f, _, h1, h2⟩, by obtain ⟨g, h1, h2⟩ := h.out; exact ⟨g, [], h1, by simpa using h2⟩⟩

/-- Result of following the protocol. -/
def Res (p : P) (src out : Bytes) {α : Type} (Q : α → Phase → Prop) : R α → Prop
  | .ok a s => ∃ q, At p.nojail src out s q ∧ Q a q
  | .stop s => ∃ q, Near p.nojail src out s q
  | .blocked s => ∃ q, Near p.nojail src out s q
  | .ub s => (∃ q, Near p.nojail src out s q) ∧ Bad p s.log

/-- From phase `ph`, `m` follows the protocol to `Q`. -/
def Tr (p : P) (src out : Bytes) (ph : Phase) {α : Type} (m : K α) (Q : α → Phase → Prop) : Prop :=
  ∀ s, At p.nojail src out s ph → Res p src out Q (m s)

variable {p : P} {src out : Bytes} {ph : Phase} {α β : Type}

theorem Tr.bind {m : K α} {f : α → K β} {Q : α → Phase → Prop} {Q' : β → Phase → Prop} (h : Tr p src out ph m Q)
    (h' : ∀ a q, Q a q → Tr p src out q (f a) Q') : Tr p src out ph (m >>= f) Q' := by
  intro s hs
  have := h s hs
  show Res p src out Q' (match m s with | .ok a s => f a s | .stop s => .stop s | .blocked s => .blocked s | .ub s => .ub s)
  cases hm : m s with
  | ok a s' => rw [hm] at this; obtain ⟨q, h1, h2⟩ := this; exact h' a q h2 s' h1
  | stop s' => rw [hm] at this; exact this
  | blocked s' => rw [hm] at this; exact this
  | ub s' => rw [hm] at this; exact this

theorem Tr.pure {a : α} {Q : α → Phase → Prop} (h : Q a ph) : Tr p src out ph (pure a : K α) Q :=
  fun s hs => ⟨ph, hs, h⟩

theorem Tr.stop {Q : α → Phase → Prop} : Tr p src out ph (Key.stop : K α) Q := fun _ hs => ⟨ph, hs.near⟩
theorem Tr.blocked {Q : α → Phase → Prop} : Tr p src out ph (Key.blocked : K α) Q := fun _ hs => ⟨ph, hs.near⟩

theorem Tr.lift {x : Out α} {Q : α → Phase → Prop} (h : ∃ a, x = .ok a ∧ Q a ph) : Tr p src out ph (Key.lift x) Q := by
  obtain ⟨a, rfl, h⟩ := h
  exact fun s hs => ⟨ph, hs, h⟩

theorem gots_snoc (l : List Act) (a : Act) (h : ∀ m, a ≠ .got m) : gots (l ++ [a]) = gots l := by
  unfold gots
  rw [List.filterMap_append]
  cases a <;> simp_all

theorem Tr.act {a : Act} {q : Phase} {Q : Unit → Phase → Prop} (h : Step p.nojail ph a q) (hQ : Q () q)
    (h1 : ∀ m, a ≠ .got m) (h2 : ∀ m, a ≠ .sent m) (h3 : ∀ e, a ≠ .errno e) : Tr p src out ph (Key.act a) Q := by
  intro s hs
  refine ⟨q, ⟨.step hs.trace h, ?_, ?_⟩, hQ⟩
  · obtain ⟨f, g1, g2⟩ := hs.inp
    exact ⟨f, by rw [gots_snoc _ _ h1]; exact g1, g2⟩
  · obtain ⟨g, g1, g2⟩ := hs.out
    exact ⟨g, .other g1 h2 h3, g2⟩

theorem frames_snoc {f g m : Bytes} {ms : List Bytes} (h : Frames f ms) (h' : Frame g m) : Frames (f ++ g) (ms ++ [m]) := by
  induction h with
  | nil => simpa using Frames.cons h' .nil
  | cons a b ih => rw [List.append_assoc]; exact .cons a ih

theorem At.got {s : S} {q : Phase} {m f : Bytes} {fd : RFd} (hs : At p.nojail src out s ph) (h : Step p.nojail ph (.got m) q)
    (hf : Frame f m) (hfd : s.inp.src = f ++ fd.src) : At p.nojail src out { s with inp := fd, log := s.log ++ [.got m] } q := by
  refine ⟨.step hs.trace h, ?_, ?_⟩
  · obtain ⟨g, g1, g2⟩ := hs.inp
    refine ⟨g ++ f, ?_, by rw [g2, hfd, List.append_assoc]⟩
    show Frames _ (gots (s.log ++ [.got m]))
    rw [show gots (s.log ++ [.got m]) = gots s.log ++ [m] by simp [gots]]
    exact frames_snoc g1 hf
  · obtain ⟨g, g1, g2⟩ := hs.out
    exact ⟨g, .other g1 (by simp) (by simp), g2⟩

theorem At.fd {s : S} {fd : RFd} (hs : At p.nojail src out s ph) : Near p.nojail src out { s with inp := fd } ph :=
  ⟨hs.trace, hs.near.inp, hs.near.out⟩

/-- The buffer after storing `x` at `off`. -/
def over (buf : Bytes) (off : Nat) (x : Bytes) : Bytes := buf.take off ++ (x ++ buf.drop (off + x.length))

theorem copyN_over (buf : Bytes) (off : Nat) (x : Bytes) (h : off + x.length ≤ buf.length) :
    copyN buf off x x.length = .ok (over buf off x) := by
  rw [copyN_full _ _ _ _ (Nat.le_refl _) h, List.take_length]; rfl

theorem over_length (buf : Bytes) (off : Nat) (x : Bytes) (h : off + x.length ≤ buf.length) : (over buf off x).length = buf.length := by
  simp [over]; omega

theorem Tr.readmax {buf : Bytes} {off bound : Nat} {Q : Bytes × Nat → Phase → Prop} (hb : off + bound ≤ buf.length)
    (h : ∀ x : Bytes, x.length ≤ bound → ∃ q, Step p.nojail ph (.got x) q ∧ Q (over buf off x, x.length) q) :
    Tr p src out ph (readmaxTo buf off bound) Q := by
  intro s hs
  unfold readmaxTo
  cases hr : pipe_readmax s.inp bound with
  | none => exact ⟨ph, hs.near⟩
  | some v =>
    obtain ⟨r, x, n, fd⟩ := v
    obtain ⟨h1, h2, h3, h4⟩ := c18_readmax _ _ _ _ _ _ hr
    simp only [copyN_over buf off x (by omega)]
    rcases h4 with rfl | rfl
    · obtain ⟨_, rfl, f, hf, hfd⟩ := h3 rfl
      obtain ⟨q, g1, g2⟩ := h x h1
      exact ⟨q, hs.got g1 hf hfd, g2⟩
    · exact ⟨ph, hs.fd⟩

theorem Tr.readall {buf : Bytes} {n : Nat} {Q : Bytes → Phase → Prop} (hb : n ≤ buf.length)
    (h : ∀ x : Bytes, x.length = n → ∃ q, Step p.nojail ph (.got x) q ∧ Q (over buf 0 x) q) :
    Tr p src out ph (readallTo buf n) Q := by
  intro s hs
  unfold readallTo
  cases hr : pipe_readall s.inp n with
  | none => exact ⟨ph, hs.near⟩
  | some v =>
    obtain ⟨r, x, fd⟩ := v
    obtain ⟨h1, h3, h4⟩ := c18_readall _ _ _ _ _ hr
    simp only [copyN_over buf 0 x (by omega)]
    rcases h4 with rfl | rfl
    · obtain ⟨_, hx, f, hf, hfd⟩ := h3 rfl
      obtain ⟨q, g1, g2⟩ := h x hx
      exact ⟨q, hs.got g1 hf hfd, g2⟩
    · exact ⟨ph, hs.fd⟩

/-- A whole buffer is read. -/
theorem Tr.readfix {buf : Bytes} {n : Nat} {Q : Bytes → Phase → Prop} (hb : buf.length = n)
    (h : ∀ x : Bytes, x.length = n → ∃ q, Step p.nojail ph (.got x) q ∧ Q x q) :
    Tr p src out ph (readallTo buf n) Q := by
  refine Tr.readall (by omega) fun x hx => ?_
  obtain ⟨q, h1, h2⟩ := h x hx
  refine ⟨q, h1, ?_⟩
  rwa [show over buf 0 x = x by simp [over]; omega]

theorem pipe_write_prefix {fd fd' : WFd} {x : Bytes} {r : Int} (h : pipe_write fd x = some (r, fd')) :
    (∃ t, fd'.out = fd.out ++ t) ∧ (r = 0 ∨ r = -1) := by
  unfold pipe_write at h
  cases h1 : Rw.writeall fd (uint64_pack x.length) with
  | none => rw [h1] at h; cases h
  | some v =>
    obtain ⟨r1, fd1⟩ := v
    rw [h1] at h
    simp only [Option.bind_eq_bind, Option.bind_some] at h
    obtain ⟨p1, q1, _, e1, _⟩ := Rw.c14_writeall _ _ _ _ h1
    split at h
    · cases h; exact ⟨⟨p1, e1⟩, .inr rfl⟩
    · cases h2 : Rw.writeall fd1 x with
      | none => rw [h2] at h; cases h
      | some v =>
        obtain ⟨r2, fd2⟩ := v
        rw [h2] at h
        simp only [Option.bind_some] at h
        obtain ⟨p2, q2, _, e2, _⟩ := Rw.c14_writeall _ _ _ _ h2
        split at h <;> cases h
        · exact ⟨⟨p1 ++ p2, by rw [e2, e1, List.append_assoc]⟩, .inr rfl⟩
        · exact ⟨⟨p1 ++ p2, by rw [e2, e1, List.append_assoc]⟩, .inl rfl⟩

theorem pipe_writeerrno_inv {fd fd' : WFd} {e r : Int} (h : pipe_writeerrno fd e = some (r, fd')) :
    (∃ t, fd'.out = fd.out ++ t) ∧ (r = 0 ∨ r = -1) ∧ (r = 0 → fd'.out = fd.out ++ uint64_pack (-e)) := by
  unfold pipe_writeerrno at h
  cases h1 : Rw.writeall fd (uint64_pack (-e)) with
  | none => rw [h1] at h; cases h
  | some v =>
    obtain ⟨r1, fd1⟩ := v
    rw [h1] at h
    simp only [Option.bind_eq_bind, Option.bind_some] at h
    obtain ⟨p1, q1, e0, e1, e2⟩ := Rw.c14_writeall _ _ _ _ h1
    split at h <;> cases h
    · exact ⟨⟨p1, e1⟩, .inr rfl, by simp⟩
    · refine ⟨⟨p1, e1⟩, .inl rfl, fun _ => ?_⟩
      rcases e2 with ⟨_, rfl⟩ | ⟨e2, _⟩
      · rw [e1, e0, List.append_nil]
      · contradiction

theorem Tr.send {x : Bytes} {q : Phase} {Q : Unit → Phase → Prop} (hx : x.length < 2 ^ 63) (h : Step p.nojail ph (.sent x) q)
    (hQ : Q () q) : Tr p src out ph (Key.send x) Q := by
  intro s hs
  unfold Key.send
  cases hr : pipe_write s.out x with
  | none => exact ⟨ph, hs.near⟩
  | some v =>
    obtain ⟨r, fd⟩ := v
    obtain ⟨⟨t, ht⟩, h4⟩ := pipe_write_prefix hr
    obtain ⟨g, g1, g2⟩ := hs.out
    simp only []
    rcases h4 with rfl | rfl
    · obtain ⟨f, hf, e⟩ := c17_write _ _ _ hx hr
      refine ⟨q, ⟨.step hs.trace h, ?_, ?_⟩, hQ⟩
      · obtain ⟨f, g1, g2⟩ := hs.inp
        exact ⟨f, by rw [gots_snoc _ _ (by simp)]; exact g1, g2⟩
      · exact ⟨g ++ f, .sent g1 hf, by rw [e, g2, List.append_assoc]⟩
    · exact ⟨ph, hs.trace, hs.near.inp, g, t, g1, by rw [ht, g2]⟩

theorem Tr.sendErrno {e : Int} {q : Phase} {Q : Unit → Phase → Prop} (h : Step p.nojail ph (.errno e) q)
    (hQ : Q () q) : Tr p src out ph (Key.sendErrno e) Q := by
  intro s hs
  unfold Key.sendErrno
  cases hr : pipe_writeerrno s.out e with
  | none => exact ⟨ph, hs.near⟩
  | some v =>
    obtain ⟨r, fd⟩ := v
    obtain ⟨⟨t, ht⟩, h4, h5⟩ := pipe_writeerrno_inv hr
    obtain ⟨g, g1, g2⟩ := hs.out
    simp only []
    rcases h4 with rfl | rfl
    · refine ⟨q, ⟨.step hs.trace h, ?_, ?_⟩, hQ⟩
      · obtain ⟨f, g1, g2⟩ := hs.inp
        exact ⟨f, by rw [gots_snoc _ _ (by simp)]; exact g1, g2⟩
      · obtain ⟨c1, c2⟩ := c16_pack (-e)
        refine ⟨g ++ uint64_pack (-e), .errno _ g1 c1 ?_, by rw [h5 rfl, g2, List.append_assoc]⟩
        rw [c2]
        unfold toU64
        omega
    · exact ⟨ph, hs.trace, hs.near.inp, g, t, g1, by rw [ht, g2]⟩

end Key
