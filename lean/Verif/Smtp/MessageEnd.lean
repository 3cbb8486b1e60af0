import Verif.Smtp.StarttlsProps
/-
C118: where a message ends for the mail program.
-/
namespace Smtp
open Str Str.Spec

namespace Spec

/-- The bytes the mail program was given. -/
def given : List Act → Bytes
  | [] => []
  | .child d :: l => d ++ given l
  | _ :: l => given l

/-- The bytes that were taken from the client, with their line feeds. -/
def taken : List Act → Bytes
  | [] => []
  | .line raw :: l => raw ++ c! '\n' :: taken l
  | _ :: l => taken l

/-- The text of a message ends with the end-of-message mark of RFC 5321: CR LF . CR LF. The first
of the two line ends may be that of DATA. -/
def Ended (text : Bytes) : Prop := b!"\r\n.\r\n" <:+ b!"\r\n" ++ text

/-- `text` is a message up to its first end mark, or a message not ended yet. -/
def UpToEnd (text : Bytes) : Prop := ∀ p, p <+: text → Ended p → p = text

/-- The client ends all its lines with CR LF, also what comes after a pause, and sends no NUL. -/
def Canonical (net : List Ev) : Prop :=
  0 ∉ evStream net ∧
  ∀ t, (t = net ∨ Idle net t) → ∀ a b, evStream t = a ++ c! '\n' :: b → a.getLast? = some (c! '\r')

end Spec
open Spec (given taken Ended UpToEnd Canonical)

/-! ### Lines and marks -/

/-- Lines, each with its LF. (Specification or proof notion; models no line of /repo.) -/
def lined (ls : List Bytes) : Bytes := ls.flatMap (fun l => l ++ [c! '\n'])

theorem lined_head {ls : List Bytes} {u b : Bytes} (h : lined ls = u ++ c! '\n' :: b) (hl : ∀ l ∈ ls, c! '\n' ∉ l)
    (hu : c! '\n' ∉ u) : u ∈ ls := by
  cases ls with
  | nil => simp [lined] at h
  | cons l ls =>
    have e : l ++ c! '\n' :: lined ls = u ++ c! '\n' :: b := by simpa [lined] using h
    rcases List.append_eq_append_iff.mp e with ⟨c, h1, h2⟩ | ⟨c, h1, h2⟩
    · cases c with
      | nil => simp [h1]
      | cons x c => simp at h2; rw [h1, ← h2.1] at hu; simp at hu
    · cases c with
      | nil => simp [h1]
      | cons x c => simp at h2; have := hl l (.head _); rw [h1, ← h2.1] at this; simp at this

theorem lined_mem (ls : List Bytes) : ∀ {a u b : Bytes}, lined ls = a ++ c! '\n' :: (u ++ c! '\n' :: b) →
    (∀ l ∈ ls, c! '\n' ∉ l) → c! '\n' ∉ u → u ∈ ls := by
  induction ls with
  | nil => intro a u b h; simp [lined] at h
  | cons l ls ih =>
    intro a u b h hl hu
    have hl' : ∀ l ∈ ls, c! '\n' ∉ l := fun l h => hl l (.tail _ h)
    have e : l ++ c! '\n' :: lined ls = a ++ c! '\n' :: (u ++ c! '\n' :: b) := by simpa [lined] using h
    rcases List.append_eq_append_iff.mp e with ⟨c, h1, h2⟩ | ⟨c, h1, h2⟩
    · cases c with
      | nil => simp at h2; exact .tail _ (lined_head h2 hl' hu)
      | cons x c => simp at h2; exact .tail _ (ih h2.2 hl' hu)
    · cases c with
      | nil => simp at h2; exact .tail _ (lined_head h2.symm hl' hu)
      | cons x c => simp at h2; have := hl l (.head _); rw [h1, ← h2.1] at this; simp at this

/-- A message whose lines are no dots has no end mark in it. -/
theorem notEnded {ls : List Bytes} (hn : ∀ l ∈ ls, c! '\n' ∉ l) (hd : ∀ l ∈ ls, l ≠ b!".") {p : Bytes}
    (hp : p <+: ls.flatMap (fun l => l ++ b!"\r\n")) : ¬ Ended p := by
  rintro ⟨a, ha⟩
  obtain ⟨q, hq⟩ := hp
  have e : lined (b!"\r" :: ls.map (· ++ b!"\r")) = (a ++ b!"\r") ++ c! '\n' :: (b!".\r" ++ c! '\n' :: q) := by
    have h1 : lined (b!"\r" :: ls.map (· ++ b!"\r")) = b!"\r\n" ++ ls.flatMap (fun l => l ++ b!"\r\n") := by
      simp [lined, List.flatMap_map]
    rw [h1, ← hq, ← List.append_assoc, ← ha]
    simp
  have := lined_mem _ e (by
    intro l h
    rcases List.mem_cons.mp h with rfl | h
    · decide
    · obtain ⟨l', h1, rfl⟩ := List.mem_map.mp h
      have := hn l' h1
      simp [this]) (by decide)
  rcases List.mem_cons.mp this with h | h
  · exact absurd h (by decide)
  · obtain ⟨l', h1, h2⟩ := List.mem_map.mp h
    refine hd l' h1 ?_
    have : l' ++ b!"\r" = b!"." ++ b!"\r" := h2
    exact List.append_cancel_right this

/-- With the line that is a dot, the message ends there and not before. -/
theorem upToEnd_dot {ls : List Bytes} (hn : ∀ l ∈ ls, c! '\n' ∉ l) (hd : ∀ l ∈ ls, l ≠ b!".") :
    Ended (ls.flatMap (fun l => l ++ b!"\r\n") ++ b!".\r\n") ∧
    UpToEnd (ls.flatMap (fun l => l ++ b!"\r\n") ++ b!".\r\n") := by
  constructor
  · have : ∃ y, b!"\r\n" ++ ls.flatMap (fun l => l ++ b!"\r\n") = y ++ b!"\r\n" := by
      rcases List.eq_nil_or_concat ls with rfl | ⟨ls', l, rfl⟩
      · exact ⟨[], rfl⟩
      · exact ⟨b!"\r\n" ++ ls'.flatMap (fun l => l ++ b!"\r\n") ++ l, by simp⟩
    obtain ⟨y, hy⟩ := this
    refine ⟨y, ?_⟩
    rw [← List.append_assoc b!"\r\n", hy]
    simp
  · rintro p ⟨q, hq⟩ he
    rcases List.eq_nil_or_concat q with rfl | ⟨q', x, rfl⟩
    · simpa using hq
    exfalso
    have e : p ++ q' = ls.flatMap (fun l => l ++ b!"\r\n") ++ b!".\r" := by
      have : (p ++ q') ++ [x] = (ls.flatMap (fun l => l ++ b!"\r\n") ++ b!".\r") ++ [c! '\n'] := by
        simpa using hq
      exact (List.append_inj' this rfl).1
    rcases List.append_eq_append_iff.mp e with ⟨c, h1, h2⟩ | ⟨c, h1, h2⟩
    · exact notEnded hn hd (p := p) ⟨c, h1.symm⟩ he
    · -- `p` would end within the last line, but it ends with LF
      rcases List.eq_nil_or_concat c with rfl | ⟨c', z, rfl⟩
      · rw [List.append_nil] at h1
        exact notEnded hn hd (p := p) (by rw [h1]; exact List.prefix_refl _) he
      · obtain ⟨a, ha⟩ := he
        have hz : z = c! '\n' := by
          rw [h1] at ha
          have h3 : (a ++ b!"\r\n.\r") ++ [c! '\n'] =
              (b!"\r\n" ++ (ls.flatMap (fun l => l ++ b!"\r\n") ++ c')) ++ [z] := by simpa using ha
          have := (List.append_inj' h3 rfl).2
          simpa using this.symm
        have : c! '\n' ∈ b!".\r" := by rw [h2, ← hz]; simp
        exact absurd this (by decide)

/-! ### Bodies in a session -/

section
variable {cfg : Cfg} {net : List Ev} {cin : Bytes} {tls0 : Bool} {acks : Bytes} {gin : List Bytes}
  {wr gwr : List Bool} {x : Int} {s : S}

/-- What follows once the front end is inside a message. -/
theorem Trace.bodyShape (n : Nat) : ∀ {c : Spec.Ctx} {post : List Act} {p : Spec.Phase}, post.length ≤ n →
    Spec.Trace cfg tls0 (.body c) post p → ∃ (ls : List Bytes) (tail : List Act),
      post = ls.flatMap (fun l => [.line l, .child (Spec.forward l)]) ++ tail ∧
      (∀ l ∈ ls, c! '\n' ∉ l ∧ Spec.content l ≠ b!".") ∧
      (tail = [] ∨ (∃ raw, tail = [.line raw]) ∨
       ∃ dot rest, Spec.content dot = b!"." ∧ tail = .line dot :: .child b!".\r\n" :: rest ∧
         (rest = [] ∨ ∃ r rest', rest = .reply r :: rest')) := by
  induction n with
  | zero =>
    intro c post p hn h
    have : post = [] := List.eq_nil_of_length_eq_zero (by omega)
    exact ⟨[], [], by simp [this], by simp, .inl rfl⟩
  | succ n ih =>
    intro c post p hn h
    cases post with
    | nil => exact ⟨[], [], by simp, by simp, .inl rfl⟩
    | cons a post =>
      obtain ⟨q, h1, h2⟩ := Trace.head h
      cases h1
      case bodyLine raw hlen hlf =>
      cases post with
      | nil => exact ⟨[], [.line raw], by simp, by simp, .inr (.inl ⟨raw, rfl⟩)⟩
      | cons b post =>
        obtain ⟨q', h3, h4⟩ := Trace.head h2
        cases h3
        case bodyForward hd =>
          obtain ⟨ls, tail, rfl, h5, h6⟩ := ih (by simp at hn; omega) h4
          refine ⟨raw :: ls, tail, by simp, ?_, h6⟩
          intro l hl
          rcases List.mem_cons.mp hl with rfl | hl
          · exact ⟨hlf, hd⟩
          · exact h5 l hl
        case bodyDot hd =>
          refine ⟨[], _, rfl, by simp, .inr (.inr ⟨raw, post, hd, rfl, ?_⟩)⟩
          cases post with
          | nil => exact .inl rfl
          | cons e post =>
            obtain ⟨q'', h5, _⟩ := Trace.head h4
            cases h5
            exact .inr ⟨_, _, rfl⟩

/-- The lines are made of the bytes the client sent. -/
theorem line_noNul (h : Ran cfg net cin tls0 acks gin wr gwr x s) (h0 : 0 ∉ evStream net) {raw : Bytes}
    (hm : .line raw ∈ s.log) : NoNul raw := by
  obtain ⟨part, ht⟩ := c47_lines h
  generalize part ++ (s.buf ++ evStream s.net) = rest at ht
  generalize s.log = log at ht hm
  induction ht with
  | nil => simp at hm
  | line log raw' rest h ih =>
    rcases List.mem_append.mp hm with hm | hm
    · exact ih hm
    · cases List.mem_singleton.mp hm
      obtain ⟨a, ha⟩ := Taken.suffix h
      intro b hb e
      exact h0 (by rw [← ha]; simp [← e, hb])
  | discard log lost t h hi ih =>
    rcases List.mem_append.mp hm with hm | hm
    · exact ih hm
    · simp at hm
  | other log a rest h1 h2 h ih =>
    rcases List.mem_append.mp hm with hm | hm
    · exact ih hm
    · exact absurd (List.mem_singleton.mp hm).symm (h1 raw)

theorem line_cr (h : Ran cfg net cin tls0 acks gin wr gwr x s) (hc : Canonical net) {raw : Bytes}
    (hm : .line raw ∈ s.log) : raw.getLast? = some (c! '\r') := by
  obtain ⟨part, ht⟩ := c47_lines h
  generalize part ++ (s.buf ++ evStream s.net) = rest at ht
  generalize s.log = log at ht hm
  have inv : (∀ raw, .line raw ∈ log → raw.getLast? = some (c! '\r')) ∧
      ∃ t a, (t = net ∨ Spec.Idle net t) ∧ evStream t = a ++ rest ∧ (a = [] ∨ a.getLast? = some (c! '\n')) := by
    clear hm
    induction ht with
    | nil => exact ⟨by simp, net, [], .inl rfl, rfl, .inl rfl⟩
    | line log raw rest h ih =>
      obtain ⟨i1, t, a, i2, i3, i4⟩ := ih
      have key := hc.2 t i2 (a ++ raw) rest (by rw [i3]; simp)
      have hr : raw.getLast? = some (c! '\r') := by
        rcases List.eq_nil_or_concat raw with rfl | ⟨r', z, rfl⟩
        · rw [List.append_nil] at key
          rcases i4 with rfl | i4
          · simp at key
          · rw [i4] at key; exact absurd key (by decide)
        · simpa [List.concat_eq_append, ← List.append_assoc] using key
      refine ⟨?_, t, a ++ raw ++ [c! '\n'], i2, by rw [i3]; simp, .inr (by simp)⟩
      intro r hr'
      rcases List.mem_append.mp hr' with hm | hm
      · exact i1 r hm
      · cases List.mem_singleton.mp hm; exact hr
    | discard log lost t h hi ih =>
      refine ⟨?_, t, [], .inr hi, rfl, .inl rfl⟩
      intro r hr'
      rcases List.mem_append.mp hr' with hm | hm
      · exact ih.1 r hm
      · simp at hm
    | other log a rest h1 h2 h ih =>
      refine ⟨?_, ih.2⟩
      intro r hr'
      rcases List.mem_append.mp hr' with hm | hm
      · exact ih.1 r hm
      · exact absurd (List.mem_singleton.mp hm).symm (h1 r)
  exact inv.1 raw hm

theorem given_lines (f : Bytes → Bytes) (ls : List Bytes) (tail : List Act) :
    given (ls.flatMap (fun l => [.line l, .child (f l)]) ++ tail) = ls.flatMap f ++ given tail := by
  induction ls with
  | nil => rfl
  | cons l ls ih => simp [given, ih]

theorem taken_lines (f : Bytes → Bytes) (ls : List Bytes) (tail : List Act) :
    taken (ls.flatMap (fun l => [.line l, .child (f l)]) ++ tail) = lined ls ++ taken tail := by
  induction ls with
  | nil => rfl
  | cons l ls ih =>
    have : lined (l :: ls) = l ++ c! '\n' :: lined ls := by simp [lined]
    simp [taken, ih, this]

theorem forward_verbatim {raw : Bytes} (h0 : NoNul raw) (hc : raw.getLast? = some (c! '\r')) :
    Spec.forward raw = raw ++ [c! '\n'] := by
  rw [forward_of_noNul raw h0]
  obtain ⟨ys, rfl⟩ := List.getLast?_eq_some_iff.mp hc
  simp [Spec.content]

/-- **C118** for clients without NUL bytes. From the 354 reply on, all actions are those of one
message up to `rest`. In what the mail program was given of it there is no end mark but at its very
end, and there only if the client's last line taken was only a dot; then the mail program is asked
for its reply. Without such a line the session ends, and the mail program has seen no end of the
message. -/
theorem c118_end_partial (h : Ran cfg net cin tls0 acks gin wr gwr x s) (h0 : 0 ∉ evStream net)
    (pre post : List Act) (d r y : Bytes) (hd : Spec.verb d = .data) (hr : Spec.code r = 354)
    (hl : s.log = pre ++ [.line d, .child (Spec.forward d), .reply r, .client y] ++ post) :
    ∃ body rest, post = body ++ rest ∧ (∀ a ∈ body, ∃ z, a = .line z ∨ a = .child z) ∧
      UpToEnd (given body) ∧
      (Ended (given body) ∧ (∃ b dot, body = b ++ [.line dot, .child b!".\r\n"] ∧ (dot = b!"." ∨ dot = b!".\r")) ∧
          (rest = [] ∨ ∃ r rest', rest = .reply r :: rest') ∨
        ¬ Ended (given body) ∧ rest = []) := by
  obtain ⟨p, ht, _⟩ := c47_trace h
  rw [hl] at ht
  have ht' : ∃ c, Spec.Trace cfg tls0 (.body c) post p := by
    have e : pre ++ [.line d, .child (Spec.forward d), .reply r, .client y] ++ post =
        (pre ++ [.line d, .child (Spec.forward d), .reply r]) ++ .client y :: post := by simp
    rw [e] at ht
    obtain ⟨q, q', t1, t2, t3⟩ := Trace.split ht
    obtain ⟨c, rfl⟩ := Trace.body (Spec.Trace.snoc _ _ _ _ _ t1 t2) ⟨pre, d, r, y, [], by simp, hd, hr, by simp⟩
    exact ⟨c, t3⟩
  obtain ⟨c, ht'⟩ := ht'
  obtain ⟨ls, tail, rfl, h1, h2⟩ := Trace.bodyShape _ (Nat.le_refl _) ht'
  have hmem : ∀ l ∈ ls, NoNul l := fun l hm => line_noNul h h0 (by
    rw [hl]; simp only [List.mem_append, List.mem_flatMap]; exact .inr (.inl ⟨l, hm, .head _⟩))
  have hf : ls.flatMap Spec.forward = (ls.map Spec.content).flatMap (fun l => l ++ b!"\r\n") := by
    rw [List.flatMap_map]
    clear h1 hl ht' ht
    induction ls with
    | nil => rfl
    | cons l ls ih =>
      rw [List.flatMap_cons, List.flatMap_cons, ih (fun l h => hmem l (.tail _ h)),
        forward_of_noNul l (hmem l (.head _))]
  have hn : ∀ l ∈ ls.map Spec.content, c! '\n' ∉ l := by
    intro l hm
    obtain ⟨l', hm', rfl⟩ := List.mem_map.mp hm
    exact fun hx => (h1 l' hm').1 (content_sub l' _ hx)
  have hdot : ∀ l ∈ ls.map Spec.content, l ≠ b!"." := by
    intro l hm
    obtain ⟨l', hm', rfl⟩ := List.mem_map.mp hm
    exact (h1 l' hm').2
  have acts : ∀ a ∈ ls.flatMap (fun l => [.line l, .child (Spec.forward l)]), ∃ z, a = Act.line z ∨ a = .child z := by
    intro a ha
    obtain ⟨l, _, hm⟩ := List.mem_flatMap.mp ha
    simp at hm
    rcases hm with rfl | rfl
    · exact ⟨_, .inl rfl⟩
    · exact ⟨_, .inr rfl⟩
  have open_ : ∀ t : List Act, given t = [] → (∀ a ∈ t, ∃ z, a = Act.line z ∨ a = .child z) →
      ∃ body rest, ls.flatMap (fun l => [.line l, .child (Spec.forward l)]) ++ t = body ++ rest ∧
      (∀ a ∈ body, ∃ z, a = Act.line z ∨ a = .child z) ∧ UpToEnd (given body) ∧
      (Ended (given body) ∧ (∃ b dot, body = b ++ [.line dot, .child b!".\r\n"] ∧ (dot = b!"." ∨ dot = b!".\r")) ∧
          (rest = [] ∨ ∃ r rest', rest = .reply r :: rest') ∨
        ¬ Ended (given body) ∧ rest = []) := by
    intro t ht ha
    refine ⟨_, [], (List.append_nil _).symm, ?_, ?_, .inr ⟨?_, rfl⟩⟩
    · intro a hm
      rcases List.mem_append.mp hm with hm | hm
      · exact acts a hm
      · exact ha a hm
    · intro p hp he
      rw [given_lines, ht, List.append_nil, hf] at hp
      exact absurd he (notEnded hn hdot hp)
    · rw [given_lines, ht, List.append_nil, hf]
      exact notEnded hn hdot (List.prefix_refl _)
  rcases h2 with rfl | ⟨raw, rfl⟩ | ⟨dot, rest, hc, rfl, hrest⟩
  · exact open_ [] rfl (by simp)
  · exact open_ [.line raw] rfl (by simp)
  · refine ⟨ls.flatMap (fun l => [.line l, .child (Spec.forward l)]) ++ [.line dot, .child b!".\r\n"], rest, by simp,
      ?_, ?_, .inl ⟨?_, ⟨_, dot, rfl, ?_⟩, hrest⟩⟩
    · intro a hm
      rcases List.mem_append.mp hm with hm | hm
      · exact acts a hm
      · simp at hm
        rcases hm with rfl | rfl
        · exact ⟨_, .inl rfl⟩
        · exact ⟨_, .inr rfl⟩
    · rw [given_lines, hf]
      exact (upToEnd_dot hn hdot).2
    · rw [given_lines, hf]
      exact (upToEnd_dot hn hdot).1
    · unfold Spec.content at hc
      split at hc
      · rename_i hx
        obtain ⟨ys, rfl⟩ := List.getLast?_eq_some_iff.mp hx
        rw [List.dropLast_concat] at hc
        rw [hc]; exact .inr rfl
      · exact .inl hc

/-- **C118** for clients that end their lines with CR LF: the mail program is given the message byte
for byte as the client sent it, up to at most one last line it was not given any more. So both find
its end at the same place. -/
theorem c118_verbatim_partial (h : Ran cfg net cin tls0 acks gin wr gwr x s) (hc : Canonical net)
    (pre post : List Act) (d r y : Bytes) (hd : Spec.verb d = .data) (hr : Spec.code r = 354)
    (hl : s.log = pre ++ [.line d, .child (Spec.forward d), .reply r, .client y] ++ post) :
    ∃ body rest, post = body ++ rest ∧ (∀ a ∈ body, ∃ z, a = .line z ∨ a = .child z) ∧
      UpToEnd (given body) ∧ (Ended (given body) ∨ rest = []) ∧
      (taken body = given body ∨ ∃ raw, taken body = given body ++ (raw ++ [c! '\n']) ∧ rest = []) ∧
      (Ended (given body) → taken body = given body) := by
  obtain ⟨body, rest, rfl, h1, h2, h3⟩ := c118_end_partial h hc.1 pre post d r y hd hr hl
  obtain ⟨p, ht, _⟩ := c47_trace h
  rw [hl] at ht
  have ht' : ∃ c, Spec.Trace cfg tls0 (.body c) (body ++ rest) p := by
    have e : pre ++ [.line d, .child (Spec.forward d), .reply r, .client y] ++ (body ++ rest) =
        (pre ++ [.line d, .child (Spec.forward d), .reply r]) ++ .client y :: (body ++ rest) := by simp
    rw [e] at ht
    obtain ⟨q, q', t1, t2, t3⟩ := Trace.split ht
    obtain ⟨c, rfl⟩ := Trace.body (Spec.Trace.snoc _ _ _ _ _ t1 t2) ⟨pre, d, r, y, [], by simp, hd, hr, by simp⟩
    exact ⟨c, t3⟩
  obtain ⟨c, ht'⟩ := ht'
  have hsub : ∀ raw, .line raw ∈ body → Spec.forward raw = raw ++ [c! '\n'] := fun raw hm =>
    have hm' : .line raw ∈ s.log := by rw [hl]; simp [hm]
    forward_verbatim (line_noNul h hc.1 hm') (line_cr h hc hm')
  clear hl ht
  have tb : ∃ q, Spec.Trace cfg tls0 (.body c) body q := by
    cases rest with
    | nil => exact ⟨p, by simpa using ht'⟩
    | cons a rest => obtain ⟨q, _, t, _⟩ := Trace.split ht'; exact ⟨q, t⟩
  obtain ⟨q, tb⟩ := tb
  obtain ⟨ls, tail, rfl, s1, s2⟩ := Trace.bodyShape _ (Nat.le_refl _) tb
  have hlined : lined ls = ls.flatMap Spec.forward := by
    unfold lined
    have : ∀ l ∈ ls, Spec.forward l = l ++ [c! '\n'] := fun l hm => hsub l (by
      simp only [List.mem_append, List.mem_flatMap]; exact .inl ⟨l, hm, .head _⟩)
    clear hsub s1 h1 h2 h3 tb ht'
    induction ls with
    | nil => rfl
    | cons l ls ih =>
      rw [List.flatMap_cons, List.flatMap_cons, ih (fun l h => this l (.tail _ h)), this l (.head _)]
  refine ⟨_, rest, rfl, h1, h2, ?_, ?_⟩
  · rcases h3 with ⟨h, _⟩ | ⟨_, h⟩
    · exact .inl h
    · exact .inr h
  · rcases s2 with rfl | ⟨raw, rfl⟩ | ⟨dot, rest', hc', rfl, hrest⟩
    · have : taken (ls.flatMap (fun l => [.line l, .child (Spec.forward l)]) ++ []) =
          given (ls.flatMap (fun l => [.line l, .child (Spec.forward l)]) ++ []) := by
        rw [given_lines, taken_lines, hlined]; rfl
      exact ⟨.inl this, fun _ => this⟩
    · have hne : ¬ Ended (given (ls.flatMap (fun l => [.line l, .child (Spec.forward l)]) ++ [.line raw])) ∧ rest = [] := by
        rcases h3 with ⟨_, ⟨b, dot, e, _⟩, _⟩ | h
        · exfalso
          have e' : ls.flatMap (fun l => [.line l, .child (Spec.forward l)]) ++ [.line raw] =
            (b ++ [.line dot]) ++ [.child b!".\r\n"] := by rw [e]; simp
          have := (List.append_inj' e' rfl).2
          simp at this
        · exact h
      refine ⟨.inr ⟨raw, ?_, hne.2⟩, fun h => absurd h hne.1⟩
      rw [given_lines, taken_lines, hlined]; simp [given, taken]
    · have hr' : rest' = [] := by
        rcases hrest with h | ⟨r, rest'', rfl⟩
        · exact h
        · obtain ⟨z, hz⟩ := h1 (.reply r) (by simp)
          simp at hz
      subst hr'
      have hdot : dot ++ [c! '\n'] = b!".\r\n" := by
        rw [← hsub dot (by simp)]; exact content_dot dot hc'
      have : taken (ls.flatMap (fun l => [.line l, .child (Spec.forward l)]) ++ [.line dot, .child b!".\r\n"]) =
          given (ls.flatMap (fun l => [.line l, .child (Spec.forward l)]) ++ [.line dot, .child b!".\r\n"]) := by
        rw [given_lines, taken_lines, hlined]
        simp only [given, taken, List.append_nil]
        rw [← hdot]
      exact ⟨.inl this, fun _ => this⟩

end

/-! ### Where it fails -/

/-- C118 is violated by bare line feeds: the client's bytes have one end of message, CR LF . CR LF,
and everything before it is one message, for a relay that takes a bare LF for text. The mail program
is given two, and the second has the sender and recipient the text of the first named. -/
theorem c118_bare_lf : ∃ s, Ran ⟨none, false, false, []⟩
    [.data b!"DATA\r\nhi\n.\nMAIL FROM:<a@b>\nRCPT TO:<c@d>\nDATA\nbad\r\n.\r\n"]
    b!"220 x\r\n354 go\r\n250 ok\r\n250 ok\r\n250 ok\r\n354 go\r\n250 ok\r\n" false [] [] [] [] 111 s ∧
    given s.log = b!"DATA\r\nhi\r\n.\r\nMAIL FROM:<a@b>\r\nRCPT TO:<c@d>\r\nDATA\r\nbad\r\n.\r\n" :=
  ran_check _ (by decide +kernel)

/-- The same client's message, read by the rule of RFC 5321, ends only after `bad`. -/
theorem c118_bare_lf_text : ∀ text, text = b!"hi\n.\nMAIL FROM:<a@b>\nRCPT TO:<c@d>\nDATA\nbad\r\n.\r\n" →
    Ended text ∧ UpToEnd text := by
  rintro text rfl
  constructor
  · unfold Ended; decide +kernel
  · intro p hp he
    have key : ∀ n < (b!"hi\n.\nMAIL FROM:<a@b>\nRCPT TO:<c@d>\nDATA\nbad\r\n.\r\n").length,
        ¬ Ended ((b!"hi\n.\nMAIL FROM:<a@b>\nRCPT TO:<c@d>\nDATA\nbad\r\n.\r\n").take n) := by
      unfold Ended; decide +kernel
    have e := List.prefix_iff_eq_take.mp hp
    rcases Nat.lt_or_ge p.length (b!"hi\n.\nMAIL FROM:<a@b>\nRCPT TO:<c@d>\nDATA\nbad\r\n.\r\n").length with h | h
    · exact absurd (e ▸ he) (key _ h)
    · exact hp.eq_of_length_le h

/-- C118 is violated by NUL bytes, although every line ends with CR LF: the mail program is given the
end of the message, a sender and a recipient in what is one line of the text for the front end. So
the recipient is not greylisted either. -/
theorem c118_nul : ∃ s, Ran ⟨none, true, true, b!"::1"⟩
    [.data b!"DATA\r\nhi\r\x00.\r\x00MAIL FROM:<a@b>\r\x00RCPT TO:<c@d>\r\n"]
    b!"220 x\r\n354 go\r\n250 ok\r\n250 ok\r\n250 ok\r\n" false [] [] [] [] 111 s ∧
    s.log = [.reply b!"220 x\r\n", .client b!"220 x\r\n", .line b!"DATA\r", .child b!"DATA\r\n",
      .reply b!"354 go\r\n", .client b!"354 go\r\n",
      .line b!"hi\r\x00.\r\x00MAIL FROM:<a@b>\r\x00RCPT TO:<c@d>\r",
      .child b!"hi\r\n.\r\nMAIL FROM:<a@b>\r\nRCPT TO:<c@d>\r\n"] :=
  ran_check _ (by decide +kernel)

/-- A session for `c118_verbatim_partial`: a message cut into three reads, with a line that begins
with a dot; the client goes away in the next one. -/
theorem c118_sample : Canonical [.data b!"DATA\r\nhi\r", .data b!"\n..\r\n.\r\nDA", .data b!"TA\r\nho"] ∧
    ∃ s, Ran ⟨none, false, false, []⟩ [.data b!"DATA\r\nhi\r", .data b!"\n..\r\n.\r\nDA", .data b!"TA\r\nho"]
      b!"220 x\r\n354 go\r\n250 ok\r\n354 go\r\n" false [] [] [] [] 111 s ∧
    given s.log = b!"DATA\r\nhi\r\n..\r\n.\r\nDATA\r\n" := by
  refine ⟨⟨by decide, ?_⟩, ran_check _ (by decide +kernel)⟩
  intro t ht a b e
  have hs : t = [.data b!"DATA\r\nhi\r", .data b!"\n..\r\n.\r\nDA", .data b!"TA\r\nho"] ∨ t = [] := by
    rcases ht with h | ⟨bf, h⟩ | ⟨bf, h, h'⟩
    · exact .inl h
    · exfalso
      have : Ev.gap ∈ [Ev.data b!"DATA\r\nhi\r", .data b!"\n..\r\n.\r\nDA", .data b!"TA\r\nho"] := by rw [h]; simp
      exact absurd this (by decide)
    · rcases h' with h' | ⟨t', rfl⟩
      · exact .inr h'
      · exfalso
        have : Ev.data [] ∈ [Ev.data b!"DATA\r\nhi\r", .data b!"\n..\r\n.\r\nDA", .data b!"TA\r\nho"] := by rw [h]; simp
        exact absurd this (by decide)
  rcases hs with rfl | rfl
  · have key : ∀ n < (b!"DATA\r\nhi\r\n..\r\n.\r\nDATA\r\nho").length,
        (b!"DATA\r\nhi\r\n..\r\n.\r\nDATA\r\nho")[n]? = some (c! '\n') →
        ((b!"DATA\r\nhi\r\n..\r\n.\r\nDATA\r\nho").take n).getLast? = some (c! '\r') := by decide +kernel
    have e' : b!"DATA\r\nhi\r\n..\r\n.\r\nDATA\r\nho" = a ++ c! '\n' :: b := e
    have := key a.length (by rw [e']; simp) (by rw [e']; simp)
    rwa [e', List.take_left] at this
  · simp [evStream] at e

end Smtp
