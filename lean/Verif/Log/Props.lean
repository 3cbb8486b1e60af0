import Verif.Log.Fmt
import Verif.Stralloc.Props
/-
C35 (log lines), C36 (formatted fields), C37 (verbosity).
-/
namespace Log
open Num.Spec (decimal)
open Proxy (IpCodec)

attribute [local instance] decForallByte

/-! ## C35 -/

theorem numField_mem (n : Int) (w : Nat) (b : Byte) (h : b ∈ numField n w) : Printable b :=
  numField_printable n w b h

theorem mem_suffixes (l : List Bytes) (h : ∀ x ∈ l, ∀ b ∈ x, Printable b) : ∀ b ∈ suffixes l, Printable b := by
  intro b hb
  unfold suffixes at hb
  split at hb
  · cases hb
  · rcases List.mem_append.1 hb with hb | hb
    · rw [List.mem_singleton.1 hb]; decide
    · obtain ⟨x, hx, hb⟩ := List.mem_flatten.1 hb
      exact h x hx b hb

/-- All bytes of a line are printable, except the ESC that starts a colour sequence. -/
theorem line_bytes (c : Settings) (vl vi : Int) (e : Event) :
    ∀ b ∈ line c vl vi e, Printable b ∨ (c.color = true ∧ b = 27) := by
  have app : ∀ (P : Byte → Prop) (x y : Bytes), (∀ b ∈ x, P b) → (∀ b ∈ y, P b) → ∀ b ∈ x ++ y, P b := by
    intro P x y hx hy b hb
    rcases List.mem_append.1 hb with hb | hb
    · exact hx b hb
    · exact hy b hb
  have lift : ∀ x : Bytes, (∀ b ∈ x, Printable b) → ∀ b ∈ x, Printable b ∨ (c.color = true ∧ b = 27) :=
    fun x h b hb => .inl (h b hb)
  have lit : ∀ x : Bytes, (x.all fun b => decide (Printable b)) = true → ∀ b ∈ x, Printable b := by
    intro x h b hb
    simpa using (List.all_eq_true.1 h b hb)
  unfold line
  simp only []
  have hcol : ∀ x, (if c.color then color e.level e.flagerror else none) = some x →
      c.color = true ∧ ∀ b ∈ x, Printable b := by
    intro x hx
    cases hc : c.color with
    | false => simp [hc] at hx
    | true => rw [hc] at hx; exact ⟨rfl, color_printable _ _ _ hx⟩
  generalize (if c.color then color e.level e.flagerror else none) = col at hcol
  refine app _ _ _ (app _ _ _ (app _ _ _ (app _ _ _ (app _ _ _ (app _ _ _ (app _ _ _ (app _ _ _ ?_ ?_) ?_) ?_) ?_) ?_) ?_) ?_) ?_
  · cases col with
    | none => simp
    | some x =>
      intro b hb
      rcases List.mem_cons.1 hb with hb | hb
      · exact .inr ⟨(hcol x rfl).1, hb⟩
      · exact .inl ((hcol x rfl).2 b hb)
  · apply lift
    cases c.time with
    | none => simp
    | some t =>
      simp only []
      unfold timeText
      refine app _ _ _ ?_ (lit _ (by decide +kernel))
      repeat' (first | exact numField_printable _ _ | exact lit _ (by decide +kernel) | apply app)
  · apply lift
    cases c.name with
    | none => simp
    | some s => exact app _ _ _ (shown_printable s) (lit _ (by decide +kernel))
  · exact lift _ (kind_printable _ _)
  · exact lift _ (lit _ (by decide +kernel))
  · apply lift
    cases c.ip with
    | none => simp
    | some s => exact app _ _ _ (shown_printable s) (lit _ (by decide +kernel))
  · exact lift _ (shown_printable _)
  · apply lift
    apply mem_suffixes
    intro x hx
    rcases List.mem_append.1 hx with hx | hx
    · rcases List.mem_append.1 hx with hx | hx
      · split at hx
        · rw [List.mem_singleton.1 hx]
          exact app _ _ _ (app _ _ _ (lit _ (by decide +kernel)) (e_str_printable _)) (lit _ (by decide +kernel))
        · cases hx
      · revert hx
        cases e.src with
        | none => intro hx; cases hx
        | some q =>
          obtain ⟨f, fce, l⟩ := q
          intro hx
          simp only [locSuffix] at hx
          split at hx
          · rw [List.mem_singleton.1 hx]
            repeat' (first | exact numField_printable _ _ | exact shown_printable _ | exact lit _ (by decide +kernel) | apply app)
          · cases hx
    · revert hx
      cases c.id with
      | none => intro hx; cases hx
      | some s =>
        intro hx
        simp only [idSuffix] at hx
        split at hx
        · rw [List.mem_singleton.1 hx]
          exact app _ _ _ (app _ _ _ (lit _ (by decide +kernel)) (shown_printable _)) (lit _ (by decide +kernel))
        · cases hx
  · cases col with
    | none => simp
    | some x =>
      intro b hb
      have hb' : b = 27 ∨ b ∈ b!"[0m" := by simpa using hb
      rcases hb' with hb | hb
      · exact .inr ⟨(hcol x rfl).1, hb⟩
      · exact .inl (lit b!"[0m" (by decide +kernel) b hb)

theorem matchLoop_iff (file : Bytes) (w : Whitelist) : matchLoop file w = 1 ∧ (∃ p ∈ w, p <+: file) ∨
    matchLoop file w = 0 ∧ ¬ ∃ p ∈ w, p <+: file := by
  induction w with
  | nil => right; simp [matchLoop]
  | cons p w ih =>
    rw [matchLoop]
    by_cases h1 : p.length > file.length
    · rw [if_pos h1]
      have hn : ¬ p <+: file := by intro h; have := h.length_le; omega
      simpa [hn] using ih
    · rw [if_neg h1]
      by_cases h2 : file.take p.length = p
      · rw [if_pos h2]
        left
        exact ⟨rfl, p, by simp, List.prefix_iff_eq_take.2 h2.symm⟩
      · rw [if_neg h2]
        have hn : ¬ p <+: file := by intro h; exact h2 (List.prefix_iff_eq_take.1 h).symm
        simpa [hn] using ih

theorem whitelist_ok (w : Whitelist) (p f : Option Bytes) (h : Ptr p f) :
    (whitelist_match w p = .ok 1 ∧ Traced w f) ∨ (whitelist_match w p = .ok 0 ∧ ¬ Traced w f) := by
  unfold whitelist_match
  by_cases hw : w = []
  · left; rw [if_pos hw]; exact ⟨rfl, .inl hw⟩
  · rw [if_neg hw]
    cases f with
    | none => left; rw [show p = none from h]; exact ⟨rfl, .inr (.inl rfl)⟩
    | some s =>
      obtain ⟨hn, rest, rfl⟩ := h
      simp only []
      rw [cstrOf_cstr _ _ hn]
      simp only [Out.ok_bind, Out.pure_eq]
      rcases matchLoop_iff s w with ⟨h1, q, h2, h3⟩ | ⟨h1, h2⟩
      · left; exact ⟨by rw [h1], .inr (.inr ⟨s, q, rfl, h2, h3⟩)⟩
      · right
        refine ⟨by rw [h1], ?_⟩
        rintro (h | h | ⟨s', q, h3, h4, h5⟩)
        · exact hw h
        · cases h
        · cases h3; exact h2 ⟨q, h4, h5⟩

theorem holds_file (a : Args) (e : Event) (h : a.Holds e) : ∃ f, Ptr a.f f := by
  have := h.src
  revert this
  cases e.src with
  | none =>
    intro hs
    rcases hs.1 with h | ⟨f, h⟩
    · exact ⟨none, h⟩
    · exact ⟨some f, h⟩
  | some q => obtain ⟨f, fce, l⟩ := q; intro hs; exact ⟨some f, hs.1⟩

/-- The usage level keeps LF inside the message and prints nothing around it. -/
theorem record_usage (m : Cfg) (lv : Levels) (a : Args) (e : Event) (he : a.Holds e) (h0 : e.level = 0) :
    record m lv a = .ok (shownUsage e.parts.flatten ++ [10]) := by
  have ha : a.level = 0 := by rw [he.level, h0]; rfl
  have hcol : (levelName a.level a.flagerror).2 = none := by rw [ha]; rfl
  have eOn : colorOn m a = .ok [] := by unfold colorOn; rw [hcol]; split <;> rfl
  have eOff : colorOff m a = .ok [] := by unfold colorOff; rw [hcol]; split <;> rfl
  have eMsg : message (decide (a.level = 0)) 9 a.s = .ok (shownUsage e.parts.flatten) := by
    rw [message_take, message_ok _ _ _ he.parts 9 (by simp; omega), decide_eq_true ha]
    unfold shownUsage
    congr 2; funext b; exact escchar_true b
  unfold record
  rw [eOn, eMsg, eOff]
  simp only [timePart, prefixPart, levelPart, errPart, locPart, idPart, if_pos ha, Out.ok_bind]
  rw [show outs b!"\n" = .ok [10] from rfl]
  simp

/-- The bytes of the record an event gives rise to. -/
def recordText (c : Settings) (vl vi : Int) (e : Event) : Bytes :=
  if e.level = 0 then shownUsage e.parts.flatten ++ [10] else line c vl vi e ++ [10]

theorem record_text (m : Cfg) (c : Settings) (hc : m.Holds c) (lv : Levels) (a : Args) (e : Event)
    (he : a.Holds e) (h4 : e.level ≤ 4) : record m lv a = .ok (recordText c lv.loc lv.id e) := by
  unfold recordText
  by_cases h0 : e.level = 0
  · rw [if_pos h0]; exact record_usage m lv a e he h0
  · rw [if_neg h0]; exact record_ok m c hc lv a e he (by omega) h4

/-- One call of the module, whatever the writes do: nothing if the record is not due; otherwise some
of the record's bytes, in order. -/
theorem log_cases (m : Cfg) (c : Settings) (hc : m.Holds c) (w : Whitelist) (lv : Levels) (a : Args) (e : Event)
    (f : Option Bytes) (he : a.Holds e) (hf : Ptr a.f f) (h4 : e.level ≤ 4) (s : St) (hs : s.Idle) :
    (¬ Due lv.gate w f e.level ∧ log_9_ m w lv a s = .ok s) ∨
    (Due lv.gate w f e.level ∧ ∃ s' out, log_9_ m w lv a s = .ok s' ∧ s'.err = s.err ++ out ∧
      out.Sublist (recordText c lv.loc lv.id e) ∧ (s'.blocked = false → s'.Idle) ∧ s'.evs <:+ s.evs ∧
      (AllData s.evs → s'.blocked = false → out = recordText c lv.loc lv.id e) ∧
      (AllData s.evs → (recordText c lv.loc lv.id e).length ≤ s.evs.length → s'.blocked = false ∧
        s.evs.length ≤ s'.evs.length + (recordText c lv.loc lv.id e).length)) := by
  unfold log_9_ Due
  by_cases hg : a.level > lv.gate
  · rw [if_pos hg]
    rw [he.level] at hg
    exact .inl ⟨by omega, rfl⟩
  · rw [if_neg hg]
    rw [he.level] at hg
    have emitted : ∃ s' out, (do let r ← record m lv a; emit s r) = .ok s' ∧ s'.err = s.err ++ out ∧
        out.Sublist (recordText c lv.loc lv.id e) ∧ (s'.blocked = false → s'.Idle) ∧ s'.evs <:+ s.evs ∧
        (AllData s.evs → s'.blocked = false → out = recordText c lv.loc lv.id e) ∧
        (AllData s.evs → (recordText c lv.loc lv.id e).length ≤ s.evs.length → s'.blocked = false ∧
          s.evs.length ≤ s'.evs.length + (recordText c lv.loc lv.id e).length) := by
      rw [record_text m c hc lv a e he h4]
      simp only [Out.ok_bind]
      obtain ⟨s', out, g1, g2, g3, g4, g5, g6, g7, g8⟩ :=
        emit_ok (recordText c lv.loc lv.id e) s [] (idle_pending s hs) hs.2.2
      refine ⟨s', out, g1, g2, g3, fun hb => ⟨g4, g5 hb, hb⟩, g6, g7, ?_⟩
      simpa using g8
    by_cases h44 : e.level = 4
    · rw [if_pos (by rw [he.level]; omega)]
      rcases whitelist_ok w a.f f hf with ⟨k1, k2⟩ | ⟨k1, k2⟩
      · rw [k1]
        simp only [Out.ok_bind]
        rw [if_neg (by omega)]
        exact .inr ⟨⟨by omega, fun _ => k2⟩, emitted⟩
      · rw [k1]
        simp only [Out.ok_bind]
        rw [if_true]
        exact .inl ⟨by rintro ⟨_, h⟩; exact k2 (h h44), rfl⟩
    · rw [if_neg (by rw [he.level]; omega)]
      simp only [Out.ok_bind]
      rw [if_neg (by omega)]
      exact .inr ⟨⟨by omega, fun h => absurd h h44⟩, emitted⟩

/-- A record of level 1 to 4 is one line: whatever the message, name, address and identifier contain and
however the writes to standard error go, what is written is (part of) a text without LF followed by one LF.
Every byte of it is printable ASCII, except the ESC of the program's own colour sequences. -/
theorem c35_one_line (m : Cfg) (c : Settings) (hc : m.Holds c) (w : Whitelist) (lv : Levels) (a : Args) (e : Event)
    (he : a.Holds e) (h1 : 1 ≤ e.level) (h4 : e.level ≤ 4) (s : St) (hs : s.Idle) :
    ∃ s' body out, log_9_ m w lv a s = .ok s' ∧ s'.err = s.err ++ out ∧ out.Sublist (body ++ [10]) ∧
      (10 : Byte) ∉ body ∧ ∀ b ∈ body, Printable b ∨ (m.logcolor = true ∧ b = 27) := by
  obtain ⟨f, hf⟩ := holds_file a e he
  have hb := line_bytes c lv.loc lv.id e
  rw [← hc.color] at hb
  have hlf : (10 : Byte) ∉ line c lv.loc lv.id e := by
    intro h
    rcases hb _ h with h | h
    · exact absurd h (by decide)
    · exact absurd h.2 (by decide)
  rcases log_cases m c hc w lv a e f he hf h4 s hs with ⟨_, h⟩ | ⟨_, s', out, e1, e2, e3, _⟩
  · exact ⟨s, line c lv.loc lv.id e, [], h, by simp, List.nil_sublist _, hlf, hb⟩
  · unfold recordText at e3
    rw [if_neg (by omega)] at e3
    exact ⟨s', _, out, e1, e2, e3, hlf, hb⟩

/-- When standard error accepts the output, the line has exactly the documented layout
`time: name: level: ip: message (error){file:function:line}[id]`. In particular the message parts,
name, address and identifier appear escaped in their places, and the ESC bytes are those of the colour
sequences at the two ends. -/
theorem c35_layout (m : Cfg) (c : Settings) (hc : m.Holds c) (w : Whitelist) (lv : Levels) (a : Args) (e : Event)
    (f : Option Bytes) (he : a.Holds e) (hf : Ptr a.f f) (h1 : 1 ≤ e.level) (h4 : e.level ≤ 4)
    (s : St) (hs : s.Idle) (hd : AllData s.evs) (hn : (line c lv.loc lv.id e).length < s.evs.length)
    (due : Due lv.gate w f e.level) :
    ∃ s', log_9_ m w lv a s = .ok s' ∧ s'.Idle ∧ s'.err = s.err ++ (line c lv.loc lv.id e ++ [10]) := by
  rcases log_cases m c hc w lv a e f he hf h4 s hs with ⟨h, _⟩ | ⟨_, s', out, e1, e2, e3, e4, e5, e6, e7⟩
  · exact absurd due h
  · unfold recordText at e6 e7
    rw [if_neg (by omega)] at e6 e7
    have hb := (e7 hd (by simp; omega)).1
    exact ⟨s', e1, e4 hb, by rw [e2, e6 hd hb]⟩

/-- Usage messages (level 0) are the only ones that keep LF; all other unprintable bytes are escaped there too. -/
theorem c35_usage (m : Cfg) (c : Settings) (hc : m.Holds c) (w : Whitelist) (lv : Levels) (a : Args) (e : Event)
    (he : a.Holds e) (h0 : e.level = 0) (s : St) (hs : s.Idle) :
    ∃ s' out, log_9_ m w lv a s = .ok s' ∧ s'.err = s.err ++ out ∧
      out.Sublist (shownUsage e.parts.flatten ++ [10]) ∧ ∀ b ∈ out, Printable b ∨ b = 10 := by
  obtain ⟨f, hf⟩ := holds_file a e he
  rcases log_cases m c hc w lv a e f he hf (by omega) s hs with ⟨_, h⟩ | ⟨_, s', out, e1, e2, e3, _⟩
  · exact ⟨s, [], h, by simp, List.nil_sublist _, by simp⟩
  · unfold recordText at e3
    rw [if_pos h0] at e3
    refine ⟨s', out, e1, e2, e3, ?_⟩
    intro b hb
    rcases List.mem_append.1 (e3.subset hb) with h | h
    · obtain ⟨x, _, h⟩ := List.mem_flatMap.1 h
      split at h
      · exact .inr (List.mem_singleton.1 h)
      · exact .inl (showByte_printable x b h)
    · exact .inr (List.mem_singleton.1 h)

/-- A history of calls. -/
structure Req where
  cfg : Cfg
  set : Settings
  w : Whitelist
  lv : Levels
  a : Args
  e : Event
  f : Option Bytes

/-- The requests of a history are well-formed calls of levels 1 to 4. -/
def Req.Ok (r : Req) : Prop :=
  r.cfg.Holds r.set ∧ r.a.Holds r.e ∧ Ptr r.a.f r.f ∧ 1 ≤ r.e.level ∧ r.e.level ≤ 4

/-- Run a history. A blocked write never returns, so nothing follows it. -/
def runAll : List Req → St → Out St
  | [], s => .ok s
  | r :: rs, s => do
    let s ← log_9_ r.cfg r.w r.lv r.a s
    if s.blocked then return s else runAll rs s

/-- Over any history of calls, standard error receives exactly the lines of the due records, in order, one
LF each: what strings the records contain cannot create or hide lines. -/
theorem c35_history (rs : List Req) (h : ∀ r ∈ rs, r.Ok) (s : St) (hs : s.Idle) (hd : AllData s.evs) :
    ∃ s', runAll rs s = .ok s' ∧ (s'.blocked = false → ∃ lines : List Bytes,
      s'.err = s.err ++ (lines.map (· ++ [10])).flatten ∧ (∀ l ∈ lines, (10 : Byte) ∉ l) ∧
      ∃ due : List Req, due.Sublist rs ∧ (∀ r, r ∈ due → Due r.lv.gate r.w r.f r.e.level) ∧
        (∀ r ∈ rs, Due r.lv.gate r.w r.f r.e.level → r ∈ due) ∧
        lines = due.map fun r => line r.set r.lv.loc r.lv.id r.e) := by
  induction rs generalizing s with
  | nil => exact ⟨s, rfl, fun _ => ⟨[], by simp, by simp, [], List.Sublist.refl _, by simp, by simp, rfl⟩⟩
  | cons r rs ih =>
    obtain ⟨h1, h2, h3, h4, h5⟩ := h r (by simp)
    have hrs : ∀ r ∈ rs, r.Ok := fun x hx => h x (by simp [hx])
    have hlf : (10 : Byte) ∉ line r.set r.lv.loc r.lv.id r.e := by
      intro hh
      rcases line_bytes _ _ _ _ _ hh with h | h
      · exact absurd h (by decide)
      · exact absurd h.2 (by decide)
    rw [runAll]
    rcases log_cases r.cfg r.set h1 r.w r.lv r.a r.e r.f h2 h3 h5 s hs with ⟨hn, e1⟩ | ⟨hy, t, out, e1, e2, e3, e4, e5, e6, e7⟩
    · rw [e1]
      simp only [Out.ok_bind]
      rw [if_neg (by simp [hs.2.2])]
      obtain ⟨s', g1, g2⟩ := ih hrs s hs hd
      refine ⟨s', g1, fun hb => ?_⟩
      obtain ⟨ls, k1, k2, due, k3, k4, k5, k6⟩ := g2 hb
      refine ⟨ls, k1, k2, due, k3.cons _, k4, ?_, k6⟩
      intro x hx hdx
      rcases List.mem_cons.1 hx with rfl | hx
      · exact absurd hdx hn
      · exact k5 x hx hdx
    · rw [e1]
      simp only [Out.ok_bind]
      cases htb : t.blocked with
      | true => exact ⟨t, by simp, fun hb => by rw [htb] at hb; cases hb⟩
      | false =>
        rw [if_neg (by simp)]
        obtain ⟨s', g1, g2⟩ := ih hrs t (e4 htb) (hd.suffix e5)
        refine ⟨s', g1, fun hb => ?_⟩
        obtain ⟨ls, k1, k2, due, k3, k4, k5, k6⟩ := g2 hb
        have hout := e6 hd htb
        unfold recordText at hout
        rw [if_neg (by omega)] at hout
        refine ⟨line r.set r.lv.loc r.lv.id r.e :: ls, ?_, ?_, r :: due, k3.cons₂ _, ?_, ?_, by rw [k6]; rfl⟩
        · rw [k1, e2, hout]; simp
        · intro l hl
          rcases List.mem_cons.1 hl with rfl | hl
          · exact hlf
          · exact k2 l hl
        · intro x hx
          rcases List.mem_cons.1 hx with rfl | hx
          · exact hy
          · exact k4 x hx
        · intro x hx hdx
          rcases List.mem_cons.1 hx with rfl | hx
          · exact List.mem_cons_self
          · exact List.mem_cons_of_mem _ (k5 x hx hdx)

/-- Two texts without backslash that look the same in the log are the same. -/
theorem c35_unambiguous_partial (x y : Bytes) (hx : (92 : Byte) ∉ x) (hy : (92 : Byte) ∉ y)
    (h : shown x = shown y) : x = y := by
  have inj : ∀ (p q : Byte) (u v : Bytes), p ≠ 92 → q ≠ 92 → showByte p ++ u = showByte q ++ v → p = q := by
    intro p q u v hp hq h
    -- the first characters determine the byte
    have key : ∀ p q : Byte, p ≠ 92 → q ≠ 92 →
        (showByte p <+: showByte q ∨ showByte q <+: showByte p) → p = q := by
      have dec : ∀ b : Byte, b ≠ 92 →
          (if (showByte b)[0]? = some 92 then
            (if (showByte b)[1]? = some 110 then (10 : Byte)
             else if (showByte b)[1]? = some 114 then 13
             else if (showByte b)[1]? = some 116 then 9
             else UInt8.ofNat (16 * (digit16.idxOf ((showByte b)[2]?.getD 0)) + digit16.idxOf ((showByte b)[3]?.getD 0)))
           else (showByte b)[0]?.getD 0) = b := by decide +kernel
      have wl : ∀ b : Byte, b ≠ 92 →
          (if (showByte b)[0]? = some 92 then (if (showByte b)[1]? = some 120 then 4 else 2) else 1) =
            (showByte b).length := by decide +kernel
      have same : ∀ p q : Byte, p ≠ 92 → q ≠ 92 → showByte p <+: showByte q → p = q := by
        intro p q hp hq hpre
        obtain ⟨t, ht⟩ := hpre
        have hpos : ∀ b : Byte, 0 < (showByte b).length ∧ ((showByte b)[0]? = some 92 → b ≠ 92 → 1 < (showByte b).length) := by
          decide +kernel
        have g0 : (showByte q)[0]? = (showByte p)[0]? := by
          rw [← ht, List.getElem?_append_left (hpos p).1]
        have hlen : (showByte p).length = (showByte q).length := by
          rw [← wl p hp, ← wl q hq, g0]
          by_cases h92 : (showByte p)[0]? = some 92
          · rw [if_pos h92, if_pos h92]
            have g1 : (showByte q)[1]? = (showByte p)[1]? := by
              rw [← ht, List.getElem?_append_left ((hpos p).2 h92 hp)]
            rw [g1]
          · rw [if_neg h92, if_neg h92]
        have : showByte p = showByte q := by
          have : t = [] := by
            have := congrArg List.length ht
            rw [List.length_append] at this
            exact List.length_eq_zero_iff.1 (by omega)
          rw [this, List.append_nil] at ht
          exact ht
        rw [← dec p hp, ← dec q hq, this]
      intro p q hp hq h
      rcases h with h | h
      · exact same p q hp hq h
      · exact (same q p hq hp h).symm
    apply key p q hp hq
    exact List.prefix_or_prefix_of_prefix (l₃ := showByte q ++ v) ⟨u, h⟩ (List.prefix_append _ _)
  have ne : ∀ b : Byte, showByte b ≠ [] := by decide +kernel
  induction x generalizing y with
  | nil =>
    cases y with
    | nil => rfl
    | cons q y =>
      unfold shown at h
      rw [List.flatMap_cons, List.flatMap_nil] at h
      exact absurd (List.append_eq_nil_iff.1 h.symm).1 (ne q)
  | cons p x ih =>
    cases y with
    | nil =>
      unfold shown at h
      rw [List.flatMap_cons, List.flatMap_nil] at h
      exact absurd (List.append_eq_nil_iff.1 h).1 (ne p)
    | cons q y =>
      have h' : showByte p ++ shown x = showByte q ++ shown y := by
        unfold shown at h ⊢
        rwa [List.flatMap_cons, List.flatMap_cons] at h
      have hp : p ≠ 92 := by intro e; apply hx; simp [e]
      have hq : q ≠ 92 := by intro e; apply hy; simp [e]
      have := inj p q _ _ hp hq h'
      subst this
      rw [ih y (by intro e; apply hx; simp [e]) (by intro e; apply hy; simp [e]) (List.append_cancel_left h')]

/-- The backslash itself is not escaped, so in general escapes are ambiguous: the two-character text
backslash-n and a line feed are logged alike. -/
theorem c35_violation_backslash : ∃ x y : Bytes, x ≠ y ∧ NoNul x ∧ NoNul y ∧
    outsescape false (cstr x []) = outsescape false (cstr y []) :=
  ⟨b!"a\nb", b!"a\\nb", by decide, by decide, by decide, by decide +kernel⟩

/-- If standard error refuses output the end of a record may be lost, and then the next record continues the
line: here the second write of the first record fails. -/
theorem c35_lost_newline : ∃ s', emit ⟨List.replicate 256 0, 0, [], [.data 1, .err, .data 300], false⟩ b!"ab\n" = .ok s' ∧
    s'.err = b!"ab" ∧ ∃ s'', emit s' b!"c\n" = .ok s'' ∧ s''.err = b!"abc\n" := by
  refine ⟨⟨b!"ab\n" ++ List.replicate 253 0, 0, b!"ab", [.data 300], false⟩, by decide +kernel, rfl,
    ⟨b!"c\nn".set 2 10 ++ List.replicate 253 0, 0, b!"abc\n", [], false⟩, by decide +kernel, rfl⟩

/-! ## C36 -/

/-- Every formatter returns a pointer to the text its argument stands for, staying inside its buffer (no
undefined behaviour) and leaving the other eight buffers alone. -/
theorem c36_text (C : IpCodec) (hC : C.Lawful) (z : Static) (h : z.WF) (k : Call) (ho : k.Ok) :
    ∃ z' p, k.run C z = .ok (z', p) ∧ z'.WF ∧ z'.text p = .ok (k.wanted C) := by
  obtain ⟨z', off, e1, e2, e3, e4, e5⟩ := run_ok C hC z h k ho
  exact ⟨z', _, e1, e2, e4⟩

/-- Run a sequence of formatter calls. -/
def runCalls (C : IpCodec) : Static → List Call → Out Static
  | z, [] => .ok z
  | z, k :: ks => do
    let (z, _) ← k.run C z
    runCalls C z ks

theorem runCalls_keep (C : IpCodec) (hC : C.Lawful) (ks : List Call) (j : Nat) : ∀ (z : Static), z.WF → (∀ k ∈ ks, k.Ok) →
    (∀ i, i < ks.length → (z.counter + 1 + i) % 9 ≠ j) →
    ∃ z', runCalls C z ks = .ok z' ∧ z'.WF ∧ z'.bufs[j]? = z.bufs[j]? := by
  induction ks with
  | nil => intro z h _ _; exact ⟨z, rfl, h, rfl⟩
  | cons k ks ih =>
    intro z h ho hj
    obtain ⟨z1, off, e1, e2, e3, e4, e5⟩ := run_ok C hC z h k (ho k (by simp))
    obtain ⟨z', f1, f2, f3⟩ := ih z1 e2 (fun x hx => ho x (by simp [hx])) (by
      intro i hi
      have := hj (i + 1) (by simp; omega)
      rw [e3]
      omega)
    refine ⟨z', ?_, f2, ?_⟩
    · rw [runCalls, e1]
      exact f1
    · rw [f3, e5 j]
      have := hj 0 (by simp)
      omega

/-- A returned text stays intact while up to eight further formatter calls are made, so the nine fragments
of one record may all be formatter results. -/
theorem c36_survives (C : IpCodec) (hC : C.Lawful) (z : Static) (h : z.WF) (k : Call) (ho : k.Ok)
    (ks : List Call) (hos : ∀ x ∈ ks, x.Ok) (hl : ks.length ≤ 8) :
    ∃ z' p z'', k.run C z = .ok (z', p) ∧ runCalls C z' ks = .ok z'' ∧ z''.text p = .ok (k.wanted C) := by
  obtain ⟨z', off, e1, e2, e3, e4, e5⟩ := run_ok C hC z h k ho
  have hlt := h.2.2
  obtain ⟨z'', f1, f2, f3⟩ := runCalls_keep C hC ks ((z.counter + 1) % 9) z' e2 hos (by
    intro i hi
    rw [e3]
    omega)
  refine ⟨z', _, z'', e1, f1, ?_⟩
  unfold Static.text at e4 ⊢
  simp only [] at e4 ⊢
  rw [f3]
  exact e4

/-- Printed numbers read back exactly, for every 64-bit value. -/
theorem c36_number (n : Int) (w : Nat) : ∃ ds, numField n w = (if n < 0 then b!"-" else []) ++ ds ∧
    (∀ d ∈ ds, Num.Spec.IsDigit d) ∧ Num.Spec.value ds = n.natAbs ∧ w ≤ (numField n w).length := by
  unfold numField
  by_cases h : n < 0
  · rw [if_pos h, if_pos h]
    refine ⟨_, List.append_assoc _ _ _, ?_, ?_, ?_⟩
    · intro d hd
      rcases List.mem_append.1 hd with hd | hd
      · rw [(List.mem_replicate.1 hd).2]; decide
      · exact Num.decimal_digits _ d hd
    · rw [Stralloc.value_zeros, Num.value_decimal]
    · simp; omega
  · rw [if_neg h, if_neg h]
    refine ⟨List.replicate (w - (decimal n.natAbs).length) 48 ++ decimal n.natAbs, rfl, ?_, ?_, ?_⟩
    · intro d hd
      rcases List.mem_append.1 hd with hd | hd
      · rw [(List.mem_replicate.1 hd).2]; decide
      · exact Num.decimal_digits _ d hd
    · rw [Stralloc.value_zeros, Num.value_decimal]
    · simp; omega

/-- The identifier is copied into its buffer in bounds; up to 67 characters are kept, longer ones are cut. -/
theorem c36_id (buf : Bytes) (hb : buf.length = 68) (s rest : Bytes) (hs : NoNul s) (env : Option Bytes) (rnd : Nat → Bytes) :
    ∃ x, set_id buf (some (cstr s rest)) env rnd = .ok x ∧ x.length = 68 ∧ cstrOf x = .ok (idText s) := by
  obtain ⟨x, tl, e1, e2, e3⟩ := idLoop_ok s rest hs [] buf (by simp) (by simpa using hb)
  refine ⟨x, e1, e2, ?_⟩
  rw [e3]
  apply cstrOf_cstr
  unfold idText
  split
  · exact hs
  · exact NoNul.app (fun b hb => hs b (List.mem_of_mem_take hb)) (by decide)

/-- Without an identifier in the call, the one in the environment is used in the same way. -/
theorem c36_env_id (buf : Bytes) (hb : buf.length = 68) (s rest : Bytes) (hs : NoNul s) (rnd : Nat → Bytes) :
    ∃ x, set_id buf none (some (cstr s rest)) rnd = .ok x ∧ x.length = 68 ∧ cstrOf x = .ok (idText s) :=
  c36_id buf hb s rest hs none rnd

/-- Without an identifier in the call or the environment, a random one of 16 letters and digits is made. -/
theorem c36_random_id (buf : Bytes) (hb : buf.length = 68) (rnd : Nat → Bytes) :
    ∃ x id, set_id buf none none rnd = .ok x ∧ x.length = 68 ∧ cstrOf x = .ok id ∧ id.length = 16 ∧
      (∀ j, j < 16 → id[j]? = idChars[Resolve.value (rnd j) % 62]?) ∧
      ∀ b ∈ id, (c! 'a' ≤ b ∧ b ≤ c! 'z') ∨ (c! 'A' ≤ b ∧ b ≤ c! 'Z') ∨ (c! '0' ≤ b ∧ b ≤ c! '9') := by
  obtain ⟨cs, e1, e2, e3⟩ := randId_ok rnd 16 [] buf (by omega)
  have hm : ∀ b ∈ cs, b ∈ idChars := by
    intro b hbm
    obtain ⟨j, hj, rfl⟩ := List.getElem_of_mem hbm
    have := e3 j (by omega)
    rw [List.getElem?_eq_getElem hj] at this
    exact List.mem_of_getElem? this.symm
  have hn : NoNul cs := by
    intro b hbm
    have : ∀ b ∈ idChars, b ≠ 0 := by decide +kernel
    exact this _ (hm b hbm)
  have hc : ∀ b ∈ idChars, (c! 'a' ≤ b ∧ b ≤ c! 'z') ∨ (c! 'A' ≤ b ∧ b ≤ c! 'Z') ∨ (c! '0' ≤ b ∧ b ≤ c! '9') := by
    decide +kernel
  simp only [List.nil_append, List.length_nil, Nat.zero_add] at e1 e3
  have hl : (cstr cs (buf.drop 17)).length = 68 := by simp [cstr, e2, hb]
  obtain ⟨x, tl, f1, f2, f3⟩ := idLoop_ok cs (buf.drop 17) hn [] (cstr cs (buf.drop 17)) (by simp) (by simpa using hl)
  refine ⟨x, cs, ?_, f2, ?_, e2, e3, fun b hb => hc b (hm b hb)⟩
  · unfold set_id
    simp only []
    rw [e1]
    exact f1
  · rw [f3]
    unfold idText
    rw [List.nil_append, if_pos (by omega)]
    exact cstrOf_cstr _ _ hn

/-! ## C37 -/

/-- What an option or signal does to the verbosity. -/
inductive Turn where
  | set (n : Int)
  | louder
  | quieter

def Turn.apply (v : Int) : Turn → Int
  | .set n => set_level n
  | .louder => inc_level v
  | .quieter => dec_level v

/-- Any sequence of settings, louder and quieter, from the initial verbosity 1 (fatal), stays within 0 to 4. -/
theorem c37_range (ts : List Turn) : 0 ≤ ts.foldl Turn.apply 1 ∧ ts.foldl Turn.apply 1 ≤ 4 := by
  have key : ∀ (ts : List Turn) (v : Int), 0 ≤ v → v ≤ 4 → 0 ≤ ts.foldl Turn.apply v ∧ ts.foldl Turn.apply v ≤ 4 := by
    intro ts
    induction ts with
    | nil => intro v h1 h2; exact ⟨h1, h2⟩
    | cons t ts ih =>
      intro v h1 h2
      rw [List.foldl_cons]
      apply ih
      all_goals
        cases t <;> simp only [Turn.apply, set_level, inc_level, dec_level] <;> (repeat' split) <;> omega
  exact key ts 1 (by omega) (by omega)

/-- Each setting does what it says within the range. -/
theorem c37_step (v : Int) (h0 : 0 ≤ v) (h4 : v ≤ 4) : Turn.apply v .louder = min (v + 1) 4 ∧
    Turn.apply v .quieter = max (v - 1) 0 ∧ ∀ n, Turn.apply v (.set n) = max 0 (min n 4) := by
  refine ⟨?_, ?_, ?_⟩
  · simp only [Turn.apply, inc_level]; split <;> omega
  · simp only [Turn.apply, dec_level]; split <;> omega
  · intro n; simp only [Turn.apply, set_level]; (repeat' split) <;> omega

/-- A call produces a record exactly when its level does not exceed the verbosity (and tracing is allowed for the
file): then its record appears on standard error, and otherwise the call has no effect. -/
theorem c37_emitted_iff (m : Cfg) (c : Settings) (hc : m.Holds c) (w : Whitelist) (v : Int) (a : Args) (e : Event)
    (f : Option Bytes) (he : a.Holds e) (hf : Ptr a.f f) (h4 : e.level ≤ 4) (s : St) (hs : s.Idle)
    (hd : AllData s.evs) (hn : (recordText c v v e).length ≤ s.evs.length) :
    ∃ s', logMacro m w v ⟨v, v, v⟩ a s = .ok s' ∧
      (Due v w f e.level → s'.err = s.err ++ recordText c v v e ∧ recordText c v v e ≠ []) ∧
      (¬ Due v w f e.level → s' = s) := by
  unfold logMacro
  by_cases hv : v < a.level
  · rw [if_pos hv]
    rw [he.level] at hv
    exact ⟨s, rfl, fun h => absurd h.1 (by omega), fun _ => rfl⟩
  · rw [if_neg hv]
    rcases log_cases m c hc w ⟨v, v, v⟩ a e f he hf h4 s hs with ⟨h, e1⟩ | ⟨h, s', out, e1, e2, e3, e4, e5, e6, e7⟩
    · exact ⟨s, e1, fun h' => absurd h' h, fun _ => rfl⟩
    · refine ⟨s', e1, fun _ => ⟨?_, ?_⟩, fun h' => absurd h h'⟩
      · rw [e2, e6 hd (e7 hd hn).1]
      · unfold recordText; split <;> simp

/-- A prefix that cannot be registered, for want of memory or of a prefix, is reported and changes nothing. -/
theorem c37_whitelist_fails (w : Whitelist) (p rest : Bytes) (hp : NoNul p) (a1 a2 : Bool) (h : a1 = false ∨ a2 = false) :
    whitelist_add w (some (cstr p rest)) a1 a2 = .ok (0, w) ∧ whitelist_add w none a1 a2 = .ok (0, w) := by
  refine ⟨?_, rfl⟩
  unfold whitelist_add
  simp only []
  rw [cstrOf_cstr _ _ hp]
  cases a1 <;> cases a2 <;> first | rfl | simp at h

example : whitelist_add [b!"tls"] (some (cstr b!"conn" [])) true false = .ok (0, [b!"tls"]) :=
  (c37_whitelist_fails [b!"tls"] b!"conn" [] (by decide) true false (.inr rfl)).1

/-- Registering a prefix makes it (and nothing else) traced; freeing the list traces everything. -/
theorem c37_whitelist (w : Whitelist) (p rest : Bytes) (hp : NoNul p) : ∃ w',
    whitelist_add w (some (cstr p rest)) true true = .ok (1, w') ∧
    (∀ f, Traced w' (some f) ↔ p <+: f ∨ ∃ q ∈ w, q <+: f) ∧ ∀ f, Traced (whitelist_free w') f := by
  refine ⟨p :: w, ?_, ?_, fun f => .inl rfl⟩
  · unfold whitelist_add
    simp only []
    rw [cstrOf_cstr _ _ hp]
    rfl
  · intro f
    constructor
    · rintro (h | h | ⟨s, q, h1, h2, h3⟩)
      · cases h
      · cases h
      · cases h1
        rcases List.mem_cons.1 h2 with rfl | h2
        · exact .inl h3
        · exact .inr ⟨q, h2, h3⟩
    · rintro (h | ⟨q, h1, h2⟩)
      · exact .inr (.inr ⟨f, p, rfl, by simp, h⟩)
      · exact .inr (.inr ⟨f, q, rfl, by simp [h1], h2⟩)

/-! ## Concrete cases -/

/-- A settings record with a name and an address that contain control bytes. -/
def exCfg : Cfg := ⟨some (cstr b!"smtp" []), false, some (cstr b!"1.2.3.4" []), some (cstr b!"id1" []), true, none, List.replicate 68 0⟩
def exArgs : Args := ⟨2, 2, some (cstr b!"main.c" []), 7, some (cstr b!"f" []), [some (cstr b!"evil\nfatal: x\x01" []), none], 32⟩
def exEvent : Event := ⟨2, 2, some (b!"main.c", b!"f", 7), [b!"evil\nfatal: x\x01"], 32⟩
def exSet : Settings := ⟨some b!"smtp", none, some b!"1.2.3.4", some b!"id1", true⟩

theorem exHolds : exCfg.Holds exSet :=
  ⟨⟨by decide, [], rfl⟩, ⟨by decide, [], rfl⟩, ⟨by decide, [], rfl⟩, rfl, rfl, (by intro t h; cases h), rfl⟩

theorem exArgsHolds : exArgs.Holds exEvent :=
  ⟨rfl, rfl, rfl, .cons (by decide +kernel) .null,
    ⟨⟨by decide, [], rfl⟩, ⟨by decide, [], rfl⟩, rfl, by decide, by decide, by decide, by decide⟩⟩

example : record exCfg ⟨3, 3, 3⟩ exArgs = .ok b!"\x1b[93msmtp: warning: 1.2.3.4: evil\\nfatal: x\\x01 (broken pipe){main.c:f:7}[id1]\x1b[0m\n" := by
  decide +kernel
example : Due 3 [] (some b!"main.c") exEvent.level := ⟨by decide, by intro h; cases h⟩
example : (⟨List.replicate 256 0, 0, [], [.data 5000], false⟩ : St).Idle := ⟨by rw [List.length_replicate], rfl, rfl⟩
example : Call.wanted ⟨fun _ => none, fun _ => none, fun _ => [], fun _ => []⟩ (.num (-5) 3) = b!"-05" := by decide +kernel
example : Call.wanted ⟨fun _ => none, fun _ => none, fun _ => [], fun _ => []⟩ (.hex (some b!"az") 2) = b!"617a" := by decide +kernel
example : (Call.num llmin 0).Ok := ⟨by unfold IsLL llmin llmax; decide, zero_ll⟩
example : numtostr (List.replicate 68 1) 68 llmin 0 = .ok (cstr b!"-9223372036854775808" (List.replicate 47 1), 0) := by
  decide +kernel

end Log
