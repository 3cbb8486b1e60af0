import Verif.Smtp.Model
import Verif.Smtp.Spec
import Verif.Str.Lemmas
/-
Lemmas about the pieces of the SMTP front end.
-/
namespace Smtp
open Str Str.Spec

theorem bind_def {α β : Type} (m : M α) (f : α → M β) (s : S) :
    (m >>= f) s = match m s with
      | .ok a s => f a s
      | .die x s => .die x s
      | .ub => .ub := rfl
theorem pure_def {α : Type} (a : α) (s : S) : (pure a : M α) s = .ok a s := rfl
theorem get_def (s : S) : get s = .ok s s := rfl
theorem modify_def (f : S → S) (s : S) : modify f s = .ok () (f s) := rfl
theorem act_def (a : Act) (s : S) : act a s = .ok () { s with log := s.log ++ [a] } := rfl
theorem die_def {α : Type} (x : Int) (s : S) : (die x : M α) s = .die x s := rfl
theorem lift_ok {α : Type} (a : α) (s : S) : lift (.ok a) s = .ok a s := rfl

theorem ite_app {α : Type} (c : Prop) [Decidable c] (a b : M α) (s : S) :
    (if c then a else b) s = if c then a s else b s := by split <;> rfl

/-- A Hoare triple: from a state satisfying `P`, `m` is defined; if it returns,
`Q` holds, and if it ends the session, `E` holds. -/
def Tri {α : Type} (P : S → Prop) (m : M α) (Q : α → S → Prop) (E : S → Prop) : Prop :=
  ∀ s, P s → match m s with
    | .ok a s' => Q a s'
    | .die _ s' => E s'
    | .ub => False

theorem Tri.bind {α β : Type} {P : S → Prop} {m : M α} {f : α → M β} {Q : α → S → Prop}
    {Q' : β → S → Prop} {E : S → Prop} (h : Tri P m Q E) (h' : ∀ a, Tri (Q a) (f a) Q' E) :
    Tri P (m >>= f) Q' E := by
  intro s hs
  have := h s hs
  rw [bind_def]
  cases e : m s with
  | ok a s' => rw [e] at this; exact h' _ _ this
  | die x s' => rw [e] at this; exact this
  | ub => rw [e] at this; exact this

theorem Tri.mono {α : Type} {P P' : S → Prop} {m : M α} {Q Q' : α → S → Prop} {E E' : S → Prop}
    (h : Tri P m Q E) (hp : ∀ s, P' s → P s) (hq : ∀ a s, Q a s → Q' a s) (he : ∀ s, E s → E' s) :
    Tri P' m Q' E' := by
  intro s hs
  have := h s (hp s hs)
  split <;> rename_i e <;> rw [e] at this
  · exact hq _ _ this
  · exact he _ this
  · exact this

theorem Tri.pure {α : Type} {P : S → Prop} {a : α} {Q : α → S → Prop} {E : S → Prop}
    (h : ∀ s, P s → Q a s) : Tri P (pure a) Q E := fun s hs => h s hs
theorem Tri.get {P : S → Prop} {Q : S → S → Prop} {E : S → Prop}
    (h : ∀ s, P s → Q s s) : Tri P get Q E := fun s hs => h s hs
theorem Tri.modify {P : S → Prop} {f : S → S} {Q : Unit → S → Prop} {E : S → Prop}
    (h : ∀ s, P s → Q () (f s)) : Tri P (modify f) Q E := fun s hs => h s hs
theorem Tri.act {P : S → Prop} {a : Act} {Q : Unit → S → Prop} {E : S → Prop}
    (h : ∀ s, P s → Q () { s with log := s.log ++ [a] }) : Tri P (act a) Q E := fun s hs => h s hs
theorem Tri.die {α : Type} {P : S → Prop} {x : Int} {Q : α → S → Prop} {E : S → Prop}
    (h : ∀ s, P s → E s) : Tri P (die x) Q E := fun s hs => h s hs
theorem Tri.ite {α : Type} {c : Prop} [Decidable c] {P : S → Prop} {a b : M α} {Q : α → S → Prop}
    {E : S → Prop} (h : c → Tri P a Q E) (h' : ¬ c → Tri P b Q E) : Tri P (if c then a else b) Q E := by
  split
  · rename_i hc; exact h hc
  · rename_i hc; exact h' hc
/-- The precondition may pin the state. -/
theorem Tri.pin {α : Type} {P : S → Prop} {m : M α} {Q : α → S → Prop} {E : S → Prop}
    (h : ∀ s0, P s0 → Tri (· = s0) m Q E) : Tri P m Q E := fun s hs => h s hs s rfl

/-! ### Reading from the client -/

/-- The bytes the front end can still read from the client. -/
def stream (s : S) : Bytes := s.buf ++ evStream s.net

theorem refill_stream (l : List Ev) : match refill l with
    | some (b, d, t) => evStream l = b :: d ++ evStream t ∧ evBytes l = d.length + 1 + evBytes t
    | none => evStream l = [] := by
  fun_induction refill l <;> simp_all [evStream, evBytes]

theorem stream_le (l : List Ev) : (evStream l).length ≤ evBytes l := by
  fun_induction evStream l <;> simp_all [evBytes] <;> omega

/-- `getc` takes the next byte of the stream. -/
theorem getc_cons (s : S) (b : Byte) (t : Bytes) (h : stream s = b :: t) :
    ∃ buf net, getc s = .ok b { s with buf := buf, net := net } ∧ buf ++ evStream net = t ∧
      buf.length + evBytes net + 1 = avail s := by
  unfold getc stream at *
  cases hb : s.buf with
  | cons x d =>
    simp only [hb, List.cons_append, List.cons.injEq] at h
    exact ⟨d, s.net, by simp [h.1], by simp [← h.2], by simp [avail, hb]; omega⟩
  | nil =>
    have hr := refill_stream s.net
    simp only [hb, List.nil_append] at h
    cases hf : refill s.net with
    | none => rw [hf] at hr; simp [hr] at h
    | some x =>
      obtain ⟨b', d, t'⟩ := x
      simp only [hf, h, List.cons_append, List.cons.injEq] at hr
      exact ⟨d, t', by simp [hr.1.1], hr.1.2.symm, by simp [avail, hb, hr.2]; omega⟩

theorem getc_nil (s : S) (h : stream s = []) : getc s = .die 111 s := by
  unfold getc stream at *
  simp only [List.append_eq_nil_iff] at h
  have hr := refill_stream s.net
  cases hf : refill s.net with
  | none => simp [h.1]
  | some x => obtain ⟨b, d, t⟩ := x; rw [hf] at hr; simp [h.2] at hr

/-- What the loop of `readline` stores for a line. -/
def stored (raw : Bytes) : Bytes := raw.map fun b => if b = 0 then c! '\n' else b

/-- The loop of `readline` on a complete line that fits. -/
theorem readlineLoop_ok (n : Nat) : ∀ (s : S) (raw l rest : Bytes), stream s = l ++ c! '\n' :: rest →
    c! '\n' ∉ l → s.line.length + l.length ≤ 4096 → l.length < n →
    ∃ buf net, readlineLoop n raw s = .ok () { s with
      buf := buf, net := net, line := s.line ++ stored l, log := s.log ++ [.line (raw ++ l)] } ∧
      buf ++ evStream net = rest := by
  induction n with
  | zero => intro s raw l rest _ _ _ h; omega
  | succ n ih =>
    intro s raw l rest hs hn hl hlt
    cases l with
    | nil =>
      obtain ⟨buf, net, e, hr, _⟩ := getc_cons s _ _ hs
      exact ⟨buf, net, by simp [readlineLoop, bind_def, e, ite_app, act_def, stored], hr⟩
    | cons b l =>
      obtain ⟨buf, net, e, hr, _⟩ := getc_cons s b (l ++ c! '\n' :: rest) hs
      simp only [List.mem_cons, not_or] at hn
      simp only [List.length_cons] at hl hlt
      have hb : b ≠ c! '\n' := fun h => hn.1 h.symm
      obtain ⟨buf', net', e', hr'⟩ := ih
        { s with buf := buf, net := net, line := s.line ++ [if b = 0 then c! '\n' else b] }
        (raw ++ [b]) l rest hr hn.2 (by simp; omega) (by omega)
      refine ⟨buf', net', ?_, hr'⟩
      have : ¬ s.line.length ≥ maxLine := by simp [maxLine]; omega
      simp [readlineLoop, bind_def, e, ite_app, hb, lineAppend, get_def, this, pure_def,
        modify_def, e', stored]

/-- The loop of `readline`, whatever comes: either it takes a complete line that
fits, or the session ends without an action. -/
theorem readlineLoop_inv (n : Nat) : ∀ (s : S) (raw : Bytes), s.line.length ≤ 4096 →
    match readlineLoop n raw s with
    | .ok _ s' => ∃ l rest buf net, stream s = l ++ c! '\n' :: rest ∧ c! '\n' ∉ l ∧
        s.line.length + l.length ≤ 4096 ∧ buf ++ evStream net = rest ∧
        buf.length + evBytes net < avail s ∧
        s' = { s with buf := buf, net := net, line := s.line ++ stored l, log := s.log ++ [.line (raw ++ l)] }
    | .die x s' => x = 111 ∧ ∃ buf net line, line.length ≤ 4096 ∧
        s' = { s with buf := buf, net := net, line := line } ∧
        ∃ l rest, stream s = l ++ rest ∧ c! '\n' ∉ l ∧ rest = buf ++ evStream net
    | .ub => False := by
  induction n with
  | zero => intro s raw h; exact ⟨rfl, _, _, _, h, rfl, [], _, rfl, by simp, rfl⟩
  | succ n ih =>
    intro s raw h
    cases hs : stream s with
    | nil =>
      simp only [readlineLoop, bind_def, getc_nil s hs]
      exact ⟨trivial, _, _, _, h, rfl, [], [], rfl, by simp, hs.symm⟩
    | cons b t =>
      obtain ⟨buf, net, e, hr, ha⟩ := getc_cons s b t hs
      by_cases hb : b = c! '\n'
      · simp only [readlineLoop, bind_def, e, ite_app, hb, if_true, act_def]
        exact ⟨[], t, buf, net, by simp, by simp, by simpa using h, hr, by omega, by simp [stored]⟩
      · by_cases hl : s.line.length ≥ maxLine
        · simp only [readlineLoop, bind_def, e, ite_app, hb, if_false, lineAppend, get_def, hl, if_true,
            die_def]
          exact ⟨trivial, _, _, _, h, rfl, [b], t, rfl, by simp [eq_comm, hb], hr.symm⟩
        · have h1 : s.line.length + 1 ≤ 4096 := by simp [maxLine] at hl; omega
          have := ih { s with buf := buf, net := net, line := s.line ++ [if b = 0 then c! '\n' else b] }
            (raw ++ [b]) (by simpa using h1)
          simp only [readlineLoop, bind_def, e, ite_app, hb, if_false, lineAppend, get_def, hl,
            modify_def, pure_def]
          split
          · rename_i e'
            rw [e'] at this
            obtain ⟨l, rest, buf', net', q1, q2, q3, q4, q5, q6⟩ := this
            refine ⟨b :: l, rest, buf', net', ?_, ?_, ?_, q4, ?_, ?_⟩
            · rw [List.cons_append, ← q1]; simp [stream, hr]
            · simp only [List.mem_cons, not_or]; exact ⟨fun h => hb h.symm, q2⟩
            · simp at q3 ⊢; omega
            · simp [avail] at q5 ha ⊢; omega
            · simp [q6, stored]
          · rename_i e'
            rw [e'] at this
            obtain ⟨hx, buf', net', line', q1, q2, l, rest, q3, q4, q5⟩ := this
            refine ⟨hx, buf', net', line', q1, by simp [q2], b :: l, rest, ?_, ?_, q5⟩
            · rw [List.cons_append, ← q3]; simp [stream, hr]
            · simp only [List.mem_cons, not_or]; exact ⟨fun h => hb h.symm, q4⟩
          · rename_i e'; rw [e'] at this; exact this

theorem stored_last (raw : Bytes) : (stored raw).getLast? = some (c! '\r') ↔ raw.getLast? = some (c! '\r') := by
  rcases List.eq_nil_or_concat raw with rfl | ⟨l, b, rfl⟩
  · simp [stored]
  · simp only [stored, List.concat_eq_append, List.map_append, List.map_cons, List.map_nil,
      List.getLast?_append, List.getLast?_singleton, Option.or_some, Option.some.injEq]
    split
    · rename_i h; subst h; simp
    · rfl

theorem strip_stored (raw : Bytes) : strip (c! '\r') (stored raw) ++ b!"\r\n" = Spec.forward raw := by
  unfold strip Spec.forward Spec.content
  by_cases h : raw.getLast? = some (c! '\r')
  · rw [if_pos h, if_pos ((stored_last raw).mpr h)]; simp [stored, List.map_dropLast]
  · rw [if_neg h, if_neg (fun h' => h ((stored_last raw).mp h'))]; rfl

/-- `readline` on a complete line that fits. -/
theorem readline_ok (s : S) (l rest : Bytes) (h : stream s = l ++ c! '\n' :: rest) (hn : c! '\n' ∉ l)
    (hl : l.length ≤ 4096) :
    ∃ buf net, readline s = .ok () { s with
      buf := buf, net := net, line := Spec.forward l, log := s.log ++ [.line l] } ∧
      buf ++ evStream net = rest := by
  have hle : l.length < avail s + 1 := by
    have h1 : (stream s).length ≤ avail s := by
      have := stream_le s.net; simp [stream, avail]; omega
    rw [h] at h1; simp at h1; omega
  obtain ⟨buf, net, e, hr⟩ := readlineLoop_ok (avail s + 1) { s with line := [] } [] l rest h hn
    (by simpa using hl) hle
  refine ⟨buf, net, ?_, hr⟩
  have ha : avail { s with line := [] } = avail s := rfl
  simp [readline, bind_def, modify_def, get_def, ha, e, strip_stored]

/-- `readline`, whatever comes. -/
theorem readline_inv (s : S) :
    match readline s with
    | .ok _ s' => ∃ l rest buf net, stream s = l ++ c! '\n' :: rest ∧ c! '\n' ∉ l ∧ l.length ≤ 4096 ∧
        buf ++ evStream net = rest ∧ buf.length + evBytes net < avail s ∧
        s' = { s with buf := buf, net := net, line := Spec.forward l, log := s.log ++ [.line l] }
    | .die x s' => x = 111 ∧ ∃ buf net line, line.length ≤ 4096 ∧
        s' = { s with buf := buf, net := net, line := line } ∧
        ∃ l rest, stream s = l ++ rest ∧ c! '\n' ∉ l ∧ rest = buf ++ evStream net
    | .ub => False := by
  have := readlineLoop_inv (avail s + 1) { s with line := [] } [] (by simp)
  have ha : avail { s with line := [] } = avail s := rfl
  simp only [readline, bind_def, modify_def, get_def, ha]
  split
  · rename_i e
    split at e <;> rename_i e' <;> rw [e'] at this
    · injection e with _ e
      obtain ⟨l, rest, buf, net, q1, q2, q3, q4, q5, q6⟩ := this
      refine ⟨l, rest, buf, net, q1, q2, by simpa using q3, q4, q5, ?_⟩
      subst q6; rw [← e]; simp [strip_stored]
    · simp at e
    · simp at e
  · rename_i e
    split at e <;> rename_i e' <;> rw [e'] at this
    · simp at e
    · injection e with ex e
      subst ex; subst e
      exact this
    · simp at e
  · rename_i e
    split at e <;> rename_i e' <;> rw [e'] at this
    · simp at e
    · simp at e
    · exact this

end Smtp
