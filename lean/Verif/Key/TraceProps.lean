import Verif.Key.Props
/-
C54: what the protocol implies.
-/
namespace Key
open Io Pipe Pipe.Spec Spec

/-- The state in which an outcome leaves the process. -/
def R.st {α : Type} : R α → S
  | .ok _ s => s
  | .stop s => s
  | .blocked s => s
  | .ub s => s

/-- C54: whatever arrives on the request pipe and however reads and writes are
scheduled, what the key process does is a run of the protocol; the requests it
acted on are a prefix of the bytes that arrived, cut into frames, and what it wrote is the
encoding of its answers (followed, if a write failed, by part of one). The process
never gets past the loop of record requests. -/
theorem c54_protocol (p : P) (hp : Lawful p) (inp : RFd) (out : WFd) :
    let r := keyjail p ⟨inp, out, []⟩
    (∃ q, Trace p.nojail r.st.log q) ∧
    (∃ f tl, Frames f (gots r.st.log) ∧ inp.src = f ++ tl) ∧
    (∃ g tl, Answers g r.st.log ∧ r.st.out.out = out.out ++ g ++ tl) ∧
    (∀ s, r ≠ .ok () s) := by
  have h := keyjail_tr hp inp.src out.out ⟨inp, out, []⟩ ⟨.start, ⟨[], .nil, rfl⟩, ⟨[], .nil, by simp⟩⟩
  simp only []
  cases hr : keyjail p ⟨inp, out, []⟩ with
  | ok a s => rw [hr] at h; obtain ⟨_, _, h⟩ := h; exact h.elim
  | stop s => rw [hr] at h; obtain ⟨q, h⟩ := h; exact ⟨⟨q, h.trace⟩, h.inp, h.out, by simp⟩
  | blocked s => rw [hr] at h; obtain ⟨q, h⟩ := h; exact ⟨⟨q, h.trace⟩, h.inp, h.out, by simp⟩
  | ub s => rw [hr] at h; obtain ⟨⟨q, h⟩, _⟩ := h; exact ⟨⟨q, h.trace⟩, h.inp, h.out, by simp⟩

/-- How far a phase is: 1 confined, 2 key generated, 3 signed, 4 agreed, 5 installed. -/
def stage : Phase → Nat
  | .names _ | .named _ | .loaded _ | .ended _ => 0
  | .jailed _ | .curve .. => 1
  | .keyed .. | .point .. | .hash .. | .size .. | .digest .. => 2
  | .signed .. | .params .. => 3
  | .agreed _ => 4
  | .serving | .prf _ | .prfDone | .dec _ | .decDone | .enc _ | .encDone | .data => 5
  | .refused => 6

theorem trace_split {nj : Bool} {l1 l2 : List Act} {a : Act} {q : Phase} (h : Trace nj (l1 ++ a :: l2) q) :
    ∃ p q', Trace nj l1 p ∧ Step nj p a q' := by
  generalize hl : l1 ++ a :: l2 = l at h
  induction h generalizing l2 with
  | start => simp at hl
  | @step l p b q' ht hs ih =>
    rcases List.eq_nil_or_concat l2 with rfl | ⟨l2', b', rfl⟩
    · have := List.append_inj' hl rfl
      obtain ⟨rfl, h⟩ := this
      cases h
      exact ⟨p, q', ht, hs⟩
    · rw [List.concat_eq_append, ← List.cons_append, ← List.append_assoc] at hl
      have := List.append_inj' hl rfl
      exact ih this.1

structure Inv (nj : Bool) (l : List Act) (q : Phase) : Prop where
  once : l.countP isKeygen ≤ 1 ∧ l.countP isSign ≤ 1 ∧ l.countP isAgree ≤ 1 ∧ l.countP isInstall ≤ 1 ∧ l.countP isJail ≤ 1
  keygen : stage q < 6 → l.countP isKeygen = if 2 ≤ stage q then 1 else 0
  sign : stage q < 6 → l.countP isSign = if 3 ≤ stage q then 1 else 0
  agree : stage q < 6 → l.countP isAgree = if 4 ≤ stage q then 1 else 0
  install : stage q < 6 → l.countP isInstall = if 5 ≤ stage q then 1 else 0
  jail : l.countP isJail = if 1 ≤ stage q ∧ nj = false then 1 else 0

theorem inv {nj : Bool} {l : List Act} {q : Phase} (h : Trace nj l q) : Inv nj l q := by
  induction h with
  | start => constructor <;> simp [stage]
  | @step l p a q ht hs ih =>
    obtain ⟨h1, h2, h3, h4, h5, h6⟩ := ih
    cases hs <;>
      simp only [stage, Nat.reduceLeDiff, Nat.reduceLT, if_true, if_false, true_implies, false_implies, true_and, false_and] at h2 h3 h4 h5 h6 <;>
      (constructor <;> simp [List.countP_append, List.countP_cons, isKeygen, isSign, isAgree, isInstall, isJail, stage, *]) <;>
      grind

/-- What the process did. -/
def log (p : P) (inp : RFd) (out : WFd) : List Act := (keyjail p ⟨inp, out, []⟩).st.log

theorem log_trace (p : P) (hp : Lawful p) (inp : RFd) (out : WFd) : ∃ q, Trace p.nojail (log p inp out) q :=
  (c54_protocol p hp inp out).1

/-- C54: at most one key generation, one signature, one key agreement, one
installation of record keys. -/
theorem c54_once (p : P) (hp : Lawful p) (inp : RFd) (out : WFd) :
    (log p inp out).countP isKeygen ≤ 1 ∧ (log p inp out).countP isSign ≤ 1 ∧
    (log p inp out).countP isAgree ≤ 1 ∧ (log p inp out).countP isInstall ≤ 1 := by
  obtain ⟨q, h⟩ := log_trace p hp inp out
  obtain ⟨h1, h2, h3, h4, _⟩ := (inv h).once
  exact ⟨h1, h2, h3, h4⟩

theorem exists_of_countP {l : List Act} {f : Act → Bool} (h : l.countP f = 1) : ∃ a ∈ l, f a = true :=
  List.countP_pos_iff.mp (by omega)

/-- C54: the order. Before a signature a key was generated; before an agreement a
signature was made; before the record keys are installed there was an agreement;
before any use of the session's keys they were installed. -/
theorem c54_order (p : P) (hp : Lawful p) (inp : RFd) (out : WFd) (l1 l2 : List Act) (a : Act)
    (h : log p inp out = l1 ++ a :: l2) :
    (isSign a → ∃ b ∈ l1, isKeygen b) ∧ (isAgree a → ∃ b ∈ l1, isSign b) ∧
    (isInstall a → ∃ b ∈ l1, isAgree b) ∧ (isUse a → ∃ b ∈ l1, isInstall b) := by
  obtain ⟨q, ht⟩ := log_trace p hp inp out
  rw [h] at ht
  obtain ⟨p', q', h1, hs⟩ := trace_split ht
  have hi := inv h1
  refine ⟨?_, ?_, ?_, ?_⟩
  · intro ha
    cases hs <;> first | (simp [isSign] at ha; done) | exact exists_of_countP (hi.keygen (by simp [stage]))
  · intro ha
    cases hs <;> first | (simp [isAgree] at ha; done) | exact exists_of_countP (hi.sign (by simp [stage]))
  · intro ha
    cases hs <;> first | (simp [isInstall] at ha; done) | exact exists_of_countP (hi.agree (by simp [stage]))
  · intro ha
    cases hs <;> first | (simp [isUse] at ha; done) | exact exists_of_countP (hi.install (by simp [stage]))

/-- C54: unless the administrator switched the jail off, every use of a secret
happens in the jail; and no file is opened in it. -/
theorem c54_jailed (p : P) (hp : Lawful p) (hj : p.nojail = false) (inp : RFd) (out : WFd) (l1 l2 : List Act) (a : Act)
    (h : log p inp out = l1 ++ a :: l2) :
    (isKeygen a ∨ isSign a ∨ isAgree a ∨ isInstall a ∨ isUse a → Act.jail ∈ l1) ∧ (isLoad a → Act.jail ∉ l1) := by
  obtain ⟨q, ht⟩ := log_trace p hp inp out
  rw [h] at ht
  obtain ⟨p', q', h1, hs⟩ := trace_split ht
  have hi := (inv h1).jail
  have jl : l1.countP isJail = 1 → Act.jail ∈ l1 := by
    intro h
    obtain ⟨b, hb, e⟩ := exists_of_countP h
    cases b <;> simp [isJail] at e
    exact hb
  have jn : l1.countP isJail = 0 → Act.jail ∉ l1 := by
    intro h hm
    exact absurd (List.countP_eq_zero.mp h _ hm) (by simp [isJail])
  constructor
  · intro ha
    cases hs <;> first
      | (simp [isKeygen, isSign, isAgree, isInstall, isUse] at ha; done)
      | exact jl (by rw [hi]; simp [stage, hj])
  · intro ha
    cases hs <;> first
      | (simp [isLoad] at ha; done)
      | exact jn (by rw [hi]; simp [stage])

/-- The private part a phase has in memory. -/
def keyOf : Phase → Option (Option Bytes)
  | .names k | .ended k | .jailed k | .curve k _ | .keyed k _ _ | .point k _ _ | .hash k _ _ _ | .size k _ _ _ _ | .digest k _ _ _ _ => some k
  | .loaded r => some (r.map (·.2))
  | _ => none

theorem lastLoaded_snoc {l : List Act} {sec : Bytes} {a : Act} (h : LastLoaded l sec) (ha : isLoad a = false) : LastLoaded (l ++ [a]) sec := by
  rcases h with ⟨h1, h2⟩ | ⟨l1, fn, c, l2, rfl, h2, h3⟩
  · refine .inl ⟨h1, ?_⟩
    intro b hb
    rcases List.mem_append.mp hb with hb | hb
    · exact h2 b hb
    · simp at hb; rw [hb]; exact ha
  · refine .inr ⟨l1, fn, c, l2 ++ [a], by simp, ?_, h3⟩
    intro b hb
    rcases List.mem_append.mp hb with hb | hb
    · exact h2 b hb
    · simp at hb; rw [hb]; exact ha

theorem key_inv {nj : Bool} {l : List Act} {q : Phase} (h : Trace nj l q) : ∀ k, keyOf q = some k → LastLoaded l (k.getD []) := by
  induction h with
  | start => intro k hk; cases hk; exact .inl ⟨rfl, by simp⟩
  | @step l p a q ht hs ih =>
    intro k hk
    cases hs <;> first
      | (cases hk; done)
      | (cases hk; exact lastLoaded_snoc (ih _ rfl) rfl)
      | skip
    · rename_i m d Pl Sl h1 h2
      cases hk
      exact .inr ⟨l, _, _, [], rfl, by simp, Sl, h2, rfl⟩
    · cases hk
      exact .inr ⟨l, _, _, [], rfl, by simp, rfl⟩

/-- C54: the signature is made with the private key from the file that was loaded
last (with nothing, if that load failed). -/
theorem c54_key (p : P) (hp : Lawful p) (inp : RFd) (out : WFd) (l1 l2 : List Act) (sec : Bytes) (hash : Byte) (d : Bytes)
    (h : log p inp out = l1 ++ .sign sec hash d :: l2) : LastLoaded l1 sec := by
  obtain ⟨q, ht⟩ := log_trace p hp inp out
  rw [h] at ht
  obtain ⟨p', q', h1, hs⟩ := trace_split ht
  cases hs
  exact key_inv h1 _ rfl

/-- C54: a file that is opened has the sanitised name of the request just before. -/
theorem c54_name (p : P) (hp : Lawful p) (inp : RFd) (out : WFd) (l1 l2 : List Act) (fn : Bytes) (c : Option Bytes)
    (h : log p inp out = l1 ++ .load fn c :: l2) :
    ∃ l0 m, l1 = l0 ++ [.got m] ∧ m ≠ [] ∧ m.length ≤ 1024 ∧ fn = name m ∧ Path.Spec.Safe fn := by
  obtain ⟨q, ht⟩ := log_trace p hp inp out
  rw [h] at ht
  obtain ⟨p', q', h1, hs⟩ := trace_split ht
  cases hs <;>
  · cases h1
    rename_i hs
    cases hs
    rename_i h2 h3
    exact ⟨_, _, rfl, h2, h3, rfl, Path.c11_safe _⟩

/-- The curve and the scalar of a phase. -/
def scalarOf : Phase → Option (Ec.Spec.Curve × Bytes)
  | .keyed _ c x | .point _ c x | .hash _ c x _ | .size _ c x _ _ | .digest _ c x _ _ | .signed c x | .params c x _ => some (c, x)
  | _ => none

theorem scalar_inv {nj : Bool} {l : List Act} {q : Phase} (h : Trace nj l q) : ∀ c x, scalarOf q = some (c, x) →
    c ∈ Ec.Spec.curves true ∧ Ec.Spec.Scalar c x ∧ Act.keygen c.id [.gen c.id x] true ∈ l := by
  induction h with
  | start => intro c x hk; cases hk
  | @step l p a q ht hs ih =>
    intro c x hk
    cases hs <;> first
      | (cases hk; done)
      | (cases hk; obtain ⟨h1, h2, h3⟩ := ih _ _ rfl; exact ⟨h1, h2, List.mem_append_left _ h3⟩)
      | skip
    rename_i h1 h2
    cases hk
    exact ⟨h1, h2, by simp⟩

theorem params_inv {nj : Bool} {l : List Act} {q : Phase} (h : Trace nj l q) : ∀ c x ms, q = .params c x ms →
    (∀ (i : Nat) (m : Bytes), ms[i]? = some m → m.length = paramLen c.point i) ∧ ∀ m ∈ ms, Act.got m ∈ l := by
  induction h with
  | start => intro c x ms hk; cases hk
  | @step l p a q ht hs ih =>
    intro c x ms hk
    subst hk
    cases hs with
    | signed _ => exact ⟨by intro i m h; simp at h, by intro m h; cases h⟩
    | @param _ _ ms m h6 hm =>
      obtain ⟨h1, h2⟩ := ih _ _ _ rfl
      constructor
      · intro i m' hi
        by_cases hlt : i < ms.length
        · rw [List.getElem?_append_left hlt] at hi; exact h1 i m' hi
        · rw [List.getElem?_append_right (by omega)] at hi
          by_cases he : i = ms.length
          · subst he; simp at hi; subst hi; exact hm
          · rw [List.getElem?_eq_none (by simp; omega)] at hi; cases hi
      · intro m' hm'
        rcases List.mem_append.mp hm' with hm' | hm'
        · exact List.mem_append_left _ (h2 m' hm')
        · simp at hm'; subst hm'; simp

/-- C54: the scalar of the agreement is the one whose point was announced, and
the peer's point has the length of the curve's points. -/
theorem c54_agree (p : P) (hp : Lawful p) (inp : RFd) (out : WFd) (l1 l2 : List Act) (curve : Nat) (calls : List Ec.Call)
    (a : Agreement) (ok : Bool) (h : log p inp out = l1 ++ .agree curve calls a ok :: l2) :
    ∃ c x pk, c ∈ Ec.Spec.curves true ∧ c.id = curve ∧ Ec.Spec.Scalar c x ∧ pk.length = c.point ∧
      calls = [.mul curve pk x] ∧ Act.keygen curve [.gen curve x] true ∈ l1 ∧ Act.got pk ∈ l1 := by
  obtain ⟨q, ht⟩ := log_trace p hp inp out
  rw [h] at ht
  obtain ⟨p', q', h1, hs⟩ := trace_split ht
  have core : ∀ c x pk sid ver suite cr sr, Trace p.nojail l1 (.params c x [pk, sid, ver, suite, cr, sr]) →
      c ∈ Ec.Spec.curves true ∧ Ec.Spec.Scalar c x ∧ pk.length = c.point ∧ Act.keygen c.id [.gen c.id x] true ∈ l1 ∧ Act.got pk ∈ l1 := by
    intro c x pk sid ver suite cr sr h1
    obtain ⟨g1, g2, g3⟩ := scalar_inv h1 c x rfl
    obtain ⟨g4, g5⟩ := params_inv h1 c x _ rfl
    exact ⟨g1, g2, g4 0 pk rfl, g3, g5 pk (by simp)⟩
  cases hs with
  | agree => obtain ⟨g1, g2, g3, g4, g5⟩ := core _ _ _ _ _ _ _ _ h1; exact ⟨_, _, _, g1, rfl, g2, g3, rfl, g4, g5⟩
  | agreeFails => obtain ⟨g1, g2, g3, g4, g5⟩ := core _ _ _ _ _ _ _ _ h1; exact ⟨_, _, _, g1, rfl, g2, g3, rfl, g4, g5⟩

end Key
