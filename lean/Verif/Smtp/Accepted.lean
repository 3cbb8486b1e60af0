import Verif.Smtp.MessageEnd
/-
C120: a message is reported as accepted only if the mail program accepted all of it.
-/
namespace Smtp
open Str Str.Spec
open Spec (given taken Ended UpToEnd Canonical)

section
variable {cfg : Cfg} {net : List Ev} {cin : Bytes} {tls0 : Bool} {acks : Bytes} {gin : List Bytes}
  {wr gwr : List Bool} {x : Int} {s : S}

/-- What follows once the front end is inside a message, up to the report to the client. -/
theorem Trace.bodyReport (n : Nat) : ∀ {c : Spec.Ctx} {post : List Act} {p : Spec.Phase}, post.length ≤ n →
    Spec.Trace cfg tls0 (.body c) post p → ∃ (ls : List Bytes) (tail : List Act),
      post = ls.flatMap (fun l => [.line l, .child (Spec.forward l)]) ++ tail ∧
      (∀ l ∈ ls, c! '\n' ∉ l ∧ Spec.content l ≠ b!".") ∧
      ((∀ u, .client u ∉ tail) ∨
       ∃ dot r h sep t rest, Spec.content dot = b!"." ∧ Spec.Reply r h sep t ∧
         tail = [.line dot, .child b!".\r\n", .reply r] ++ .client (Spec.beforeNul (Spec.tagged cfg r)) :: rest) := by
  induction n with
  | zero =>
    intro c post p hn h
    have : post = [] := List.eq_nil_of_length_eq_zero (by omega)
    exact ⟨[], [], by simp [this], by simp, .inl (by simp)⟩
  | succ n ih =>
    intro c post p hn h
    cases post with
    | nil => exact ⟨[], [], by simp, by simp, .inl (by simp)⟩
    | cons a post =>
      obtain ⟨q, h1, h2⟩ := Trace.head h
      cases h1
      case bodyLine raw hlen hlf =>
      cases post with
      | nil => exact ⟨[], [.line raw], by simp, by simp, .inl (by simp)⟩
      | cons b post =>
        obtain ⟨q', h3, h4⟩ := Trace.head h2
        cases h3
        case bodyForward hd =>
          obtain ⟨ls, tail, rfl, h5, h6⟩ := ih (by simp at hn; omega) h4
          refine ⟨raw :: ls, tail, by simp, ?_, h6⟩
          intro l hl
          rcases List.mem_cons.mp hl with rfl | hl
          · exact ⟨hlf, hd⟩
          · exact h5 l hl
        case bodyDot hd =>
          refine ⟨[], _, rfl, by simp, ?_⟩
          cases post with
          | nil => exact .inl (by simp)
          | cons e post =>
            obtain ⟨q'', h5, h6⟩ := Trace.head h4
            cases h5
            case bodyReply r hh sep t hr =>
            cases post with
            | nil => exact .inl (by simp)
            | cons f post =>
              obtain ⟨_, h7, _⟩ := Trace.head h6
              cases h7
              exact .inr ⟨raw, r, hh, sep, t, post, hd, hr, rfl⟩

theorem first_client {l1 l2 m p : List Act} {z z' : Bytes} (h : l1 ++ .client z :: l2 = m ++ .client z' :: p)
    (h1 : ∀ u, .client u ∉ l1) (h2 : ∀ u, .client u ∉ m) : l1 = m ∧ z = z' ∧ l2 = p := by
  rcases List.append_eq_append_iff.mp h with ⟨e, e1, e2⟩ | ⟨e, e1, e2⟩
  · cases e with
    | nil => simp at e1 e2; exact ⟨e1.symm, e2.1, e2.2⟩
    | cons y e => simp at e2; exact absurd (by rw [e1, ← e2.1]; simp) (h2 z)
  · cases e with
    | nil => simp at e1 e2; exact ⟨e1, e2.1.symm, e2.2.symm⟩
    | cons y e => simp at e2; exact absurd (by rw [e1, ← e2.1]; simp) (h1 z')

/-- What the client is told begins like the mail program's reply. -/
theorem tagged_head {r h : Bytes} {sep : Byte} {t : Bytes} (hr : Spec.Reply r h sep t) (b : Byte)
    (hb : (Spec.beforeNul (Spec.tagged cfg r)).head? = some b) : r.head? = some b := by
  obtain ⟨hh, _, rfl, _⟩ := hr
  have h3 : ∃ a b' rest, h ++ sep :: t = a :: b' :: rest ∧ rest.length ≥ 2 := by
    cases hh with
    | last a b c => exact ⟨a, b, _, rfl, by simp⟩
    | more a b c u h _ _ => exact ⟨a, b, _, rfl, by simp⟩
  obtain ⟨a, b', rest, e, hl⟩ := h3
  rw [e] at hb ⊢
  have hd : ∀ l : Bytes, (Spec.beforeNul (a :: l)).head? = some b → (a :: b' :: rest).head? = some b := by
    intro l hl
    unfold Spec.beforeNul at hl
    rw [List.takeWhile_cons] at hl
    split at hl
    · simpa using hl
    · simp at hl
  unfold Spec.tagged at hb
  split at hb
  · have : ∃ l, Spec.chomp (a :: b' :: rest) = a :: l := by
      obtain ⟨p, q, rest', rfl⟩ : ∃ p q rest', rest = p :: q :: rest' := by
        match rest, hl with
        | p :: q :: r, _ => exact ⟨p, q, r, rfl⟩
      unfold Spec.chomp
      simp only
      split <;> split <;> simp [List.dropLast]
    obtain ⟨l, hl'⟩ := this
    unfold Spec.own Spec.withId at hb
    rw [hl'] at hb
    split at hb <;> exact hd _ hb
  · exact hd _ hb

/-- **C120.** In every session: the first thing the client is told after the 354 reply is one reply of
the mail program (with the log id if there is one), beginning with the same digit. The mail program
gave it after it had been given the lines of the message, all of them, in order, and the line that
ends it. -/
theorem c120_accepted (h : Ran cfg net cin tls0 acks gin wr gwr x s)
    (pre mid post : List Act) (d r y z : Bytes) (hd : Spec.verb d = .data) (hr : Spec.code r = 354)
    (hl : s.log = pre ++ [.line d, .child (Spec.forward d), .reply r, .client y] ++ (mid ++ .client z :: post))
    (hm : ∀ u, .client u ∉ mid) :
    ∃ (ls : List Bytes) (dot r' h' : Bytes) (sep : Byte) (t : Bytes),
      mid = ls.flatMap (fun l => [.line l, .child (Spec.forward l)]) ++ [.line dot, .child b!".\r\n", .reply r'] ∧
      (∀ l ∈ ls, Spec.content l ≠ b!".") ∧ Spec.content dot = b!"." ∧
      Spec.Reply r' h' sep t ∧ z = Spec.beforeNul (Spec.tagged cfg r') ∧
      ∀ b, z.head? = some b → r'.head? = some b := by
  obtain ⟨p, ht, _⟩ := c47_trace h
  rw [hl] at ht
  have ht' : ∃ c, Spec.Trace cfg tls0 (.body c) (mid ++ .client z :: post) p := by
    have e : pre ++ [.line d, .child (Spec.forward d), .reply r, .client y] ++ (mid ++ .client z :: post) =
        (pre ++ [.line d, .child (Spec.forward d), .reply r]) ++ .client y :: (mid ++ .client z :: post) := by simp
    rw [e] at ht
    obtain ⟨q, q', t1, t2, t3⟩ := Trace.split ht
    obtain ⟨c, rfl⟩ := Trace.body (Spec.Trace.snoc _ _ _ _ _ t1 t2) ⟨pre, d, r, y, [], by simp, hd, hr, by simp⟩
    exact ⟨c, t3⟩
  obtain ⟨c, ht'⟩ := ht'
  obtain ⟨ls, tail, e, h1, h2⟩ := Trace.bodyReport _ (Nat.le_refl _) ht'
  have nc : ∀ u, .client u ∉ ls.flatMap (fun l => [Act.line l, .child (Spec.forward l)]) := by
    intro u hu
    obtain ⟨l, _, hm⟩ := List.mem_flatMap.mp hu
    simp at hm
  rcases h2 with h2 | ⟨dot, r', h', sep, t, rest, hdot, hrep, rfl⟩
  · exfalso
    have : .client z ∈ ls.flatMap (fun l => [Act.line l, .child (Spec.forward l)]) ++ tail := by rw [← e]; simp
    rcases List.mem_append.mp this with hx | hx
    · exact nc z hx
    · exact h2 z hx
  · rw [← List.append_assoc] at e
    obtain ⟨e1, e2, _⟩ := first_client e hm (by
      intro u hu
      rcases List.mem_append.mp hu with hx | hx
      · exact nc u hx
      · simp at hx)
    exact ⟨ls, dot, r', h', sep, t, e1, fun l hl => (h1 l hl).2, hdot, hrep, e2, fun b hb => tagged_head hrep b (e2 ▸ hb)⟩

/-- **C120**, byte for byte, for clients that end their lines with CR LF and send no NUL: when the
client is told about its message, the mail program has been given exactly what the client sent, up to
and including the end mark. -/
theorem c120_exact (h : Ran cfg net cin tls0 acks gin wr gwr x s) (hc : Canonical net)
    (pre mid post : List Act) (d r y z : Bytes) (hd : Spec.verb d = .data) (hr : Spec.code r = 354)
    (hl : s.log = pre ++ [.line d, .child (Spec.forward d), .reply r, .client y] ++ (mid ++ .client z :: post))
    (hm : ∀ u, .client u ∉ mid) :
    given mid = taken mid ∧ Ended (given mid) ∧ UpToEnd (given mid) := by
  obtain ⟨ls, dot, r', h', sep, t, rfl, hls, hdot, _, _, _⟩ := c120_accepted h pre mid post d r y z hd hr hl hm
  have inlog : ∀ l, .line l ∈ ls.flatMap (fun l => [.line l, .child (Spec.forward l)]) ++
      [Act.line dot, .child b!".\r\n", .reply r'] → .line l ∈ s.log := by
    intro l hl'; rw [hl]
    exact List.mem_append.mpr (.inr (List.mem_append.mpr (.inl hl')))
  have mem : ∀ l ∈ ls, .line l ∈ s.log := fun l hl' => inlog l (List.mem_append.mpr (.inl
    (List.mem_flatMap.mpr ⟨l, hl', .head _⟩)))
  have hf : ∀ l ∈ ls, Spec.forward l = l ++ [c! '\n'] := fun l hl' =>
    forward_verbatim (line_noNul h hc.1 (mem l hl')) (line_cr h hc (mem l hl'))
  have hdl : .line dot ∈ s.log := inlog dot (by simp)
  have hdv : dot ++ [c! '\n'] = b!".\r\n" := by
    rw [← forward_verbatim (line_noNul h hc.1 hdl) (line_cr h hc hdl)]; exact content_dot dot hdot
  have e1 : ls.flatMap Spec.forward = lined ls := by
    unfold lined
    clear inlog mem hls hl hm
    induction ls with
    | nil => rfl
    | cons l ls ih => rw [List.flatMap_cons, List.flatMap_cons, hf l (.head _), ih fun l h => hf l (.tail _ h)]
  have e2 : ls.flatMap Spec.forward = (ls.map Spec.content).flatMap (fun l => l ++ b!"\r\n") := by
    rw [List.flatMap_map]
    have : ∀ l ∈ ls, Spec.forward l = Spec.content l ++ b!"\r\n" := fun l hl' =>
      forward_of_noNul l (line_noNul h hc.1 (mem l hl'))
    clear inlog mem hls hl hm hf e1
    induction ls with
    | nil => rfl
    | cons l ls ih => rw [List.flatMap_cons, List.flatMap_cons, this l (.head _), ih fun l h => this l (.tail _ h)]
  have n1 : ∀ l ∈ ls.map Spec.content, c! '\n' ∉ l := by
    intro l hl'
    obtain ⟨l', hl'', rfl⟩ := List.mem_map.mp hl'
    intro hx
    obtain ⟨p, ht, _⟩ := c47_trace h
    obtain ⟨u, v, e⟩ := List.append_of_mem (mem l' hl'')
    rw [e] at ht
    obtain ⟨q, q', _, t, _⟩ := Trace.split ht
    have : c! '\n' ∉ l' := by cases t <;> assumption
    exact this (content_sub l' _ hx)
  have n2 : ∀ l ∈ ls.map Spec.content, l ≠ b!"." := by
    intro l hl'
    obtain ⟨l', hl'', rfl⟩ := List.mem_map.mp hl'
    exact hls l' hl''
  have up := upToEnd_dot n1 n2
  have g : given (ls.flatMap (fun l => [.line l, .child (Spec.forward l)]) ++ [.line dot, .child b!".\r\n", .reply r']) =
      ls.flatMap Spec.forward ++ b!".\r\n" := by rw [given_lines]; rfl
  refine ⟨?_, ?_⟩
  · rw [g, taken_lines, e1, ← hdv]
    simp [taken]
  · rw [g, e2]; exact up

end

/-- Two messages, the first accepted and the second refused, with a log id. -/
theorem c120_sample : ∃ s, Ran ⟨some b!"id", false, false, []⟩ [.data b!"DATA\r\nhi\r\n.\r\nDATA\r\n.\r\n"]
    b!"220 x\r\n354 go\r\n250 ok\r\n354 go\r\n554 no\r\n" false [] [] [] [] 111 s ∧
    s.log.drop 2 = [.line b!"DATA\r", .child b!"DATA\r\n", .reply b!"354 go\r\n", .client b!"354 go [id]\r\n"] ++
      ([.line b!"hi\r", .child b!"hi\r\n", .line b!".\r", .child b!".\r\n", .reply b!"250 ok\r\n"] ++
      .client b!"250 ok [id]\r\n" ::
      [.line b!"DATA\r", .child b!"DATA\r\n", .reply b!"354 go\r\n", .client b!"354 go [id]\r\n",
       .line b!".\r", .child b!".\r\n", .reply b!"554 no\r\n", .client b!"554 no [id]\r\n"]) :=
  ran_check _ (by decide +kernel)

end Smtp
