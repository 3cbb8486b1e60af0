import Verif.HostPort.Lemmas
/-
C05, C06: properties of `parsehostport`.
`ip6` is an arbitrary predicate standing for inet_pton(AF_INET6).
-/
namespace HostPort
open Spec Num.Spec

/-- C05 (accept): a string that is one of the documented forms, with a host of
at most 255 bytes, is accepted; the outputs are the host and the port,
zero-padded to their buffers. -/
theorem c05_accepts (ip6 : Bytes → Bool) (s rest oh op h p : Bytes) (hs : NoNul s)
    (hoh : oh.length = 256) (hop : op.length = 6) (hp : Parts ip6 s h p) (hl : h.length ≤ 255) :
    parsehostport ip6 oh (some op) (some (cstr s rest)) =
      .ok (1, h ++ List.replicate (256 - h.length) 0,
        some (p ++ List.replicate (6 - p.length) 0)) := by
  obtain ⟨lit, hsp, hi, hpt⟩ := (parts_iff ip6 s h p).mp hp
  obtain ⟨sp, e, ⟨t1, d1⟩, d2, ⟨t2, d3⟩, d4, d5⟩ := split_complete s rest h p lit hs hsp
  have nn := splitOf_noNul hs hsp
  have hpl : p.length ≤ 5 := by
    rcases hpt with rfl | g
    · simp
    · exact portText_len g
  unfold parsehostport
  simp only [e, Out.ok_bind, Option.isNone_some, Bool.false_eq_true, if_false]
  rw [fill_ok ip6 _ sp h p t1 t2 d1 d2 d3 d4 nn.1 nn.2, if_pos ⟨hl, by rw [d5]; exact hi, hpt⟩]
  simp only [Out.ok_bind, HOSTBYTES, PORTBYTES]
  rw [copyN_all oh _ 256 hoh (by simp; omega)]
  simp only [Out.ok_bind]
  rw [copyN_all op _ 6 hop (by simp; omega)]
  rfl

/-- C05 (reject): every other string is rejected, and both outputs are made
empty strings. -/
theorem c05_rejects (ip6 : Bytes → Bool) (s rest oh op : Bytes) (hs : NoNul s)
    (hoh : oh.length = 256) (hop : op.length = 6)
    (hno : ¬ ∃ h p, Parts ip6 s h p ∧ h.length ≤ 255) :
    parsehostport ip6 oh (some op) (some (cstr s rest)) =
      .ok (0, oh.set 0 0, some (op.set 0 0)) := by
  unfold parsehostport
  rcases split_sound s rest hs with e | ⟨sp, h, p, lit, e, hsp, ⟨t1, d1⟩, d2, ⟨t2, d3⟩, d4, d5⟩
  · simp only [e, Out.ok_bind]
    exact errExit_some oh op hoh hop
  · have nn := splitOf_noNul hs hsp
    simp only [e, Out.ok_bind, Option.isNone_some, Bool.false_eq_true, if_false]
    rw [fill_ok ip6 _ sp h p t1 t2 d1 d2 d3 d4 nn.1 nn.2, if_neg]
    · simp only [Out.ok_bind]
      exact errExit_some oh op hoh hop
    · rintro ⟨g1, g2, g3⟩
      exact hno ⟨h, p, (parts_iff ip6 s h p).mpr ⟨lit, hsp, by rw [← d5]; exact g2, g3⟩, g1⟩

/-- C05: no string can be read in two ways. -/
theorem c05_unambiguous (ip6 : Bytes → Bool) (s h p h' p' : Bytes) (hs : NoNul s)
    (a : Parts ip6 s h p) (b : Parts ip6 s h' p') : h = h' ∧ p = p' := by
  obtain ⟨l, a, -⟩ := (parts_iff ip6 s h p).mp a
  obtain ⟨l', b, -⟩ := (parts_iff ip6 s h' p').mp b
  have := splitOf_unique hs a b
  exact ⟨this.1, this.2.1⟩

/-- C05: the pieces rebuild the input, the host is non-empty, a non-empty port
is a valid decimal port, and a host with a colon is an IPv6 literal. -/
theorem c05_pieces (ip6 : Bytes → Bool) (s h p : Bytes) (a : Parts ip6 s h p) :
    (s = h ∨ s = h ++ b!":" ++ p ∨ s = b!"[" ++ h ++ b!"]" ∨ s = b!"[" ++ h ++ b!"]:" ++ p) ∧
    h ≠ [] ∧ (p = [] ∨ PortText p) ∧ (c! ':' ∈ h → ip6 h = true) := by
  cases a with
  | host h0 hf hh => exact ⟨.inl rfl, h0, .inl rfl, fun g => absurd (by simp) (hf _ g)⟩
  | hostPort h0 hf hh hpt =>
    exact ⟨.inr (.inl (by simp)), h0, .inr hpt, fun g => absurd (by simp) (hf _ g)⟩
  | ip6 hc hf hh hi =>
    exact ⟨.inl rfl, by rintro rfl; simp at hc, .inl rfl, fun _ => hi⟩
  | bracketed h0 hf hi => exact ⟨.inr (.inr (.inl (by simp))), h0, .inl rfl, fun _ => hi⟩
  | bracketedPort h0 hf hi hpt =>
    exact ⟨.inr (.inr (.inr (by simp))), h0, .inr hpt, fun _ => hi⟩

/-- C05, call without a port buffer: the string must still split, an IPv6 form
must hold an IPv6 literal, and the port text is neither checked nor returned. -/
theorem c05_noport_accepts (ip6 : Bytes → Bool) (s rest oh h p : Bytes) (lit : Bool)
    (hs : NoNul s) (hoh : oh.length = 256) (hsp : SplitOf s h p lit)
    (hi : lit = true → ip6 h = true) (hl : h.length ≤ 255) :
    parsehostport ip6 oh none (some (cstr s rest)) =
      .ok (1, h ++ List.replicate (256 - h.length) 0, none) := by
  obtain ⟨sp, e, ⟨t1, d1⟩, d2, ⟨t2, d3⟩, d4, d5⟩ := split_complete s rest h p lit hs hsp
  have nn := splitOf_noNul hs hsp
  unfold parsehostport
  simp only [e, Out.ok_bind, Option.isNone_none, if_true]
  rw [fill_ok ip6 _ { sp with portlen := 0 } h [] t1 (p ++ t2) d1 d2 (by simpa using d3) rfl nn.1 .nil,
    if_pos ⟨hl, by rw [← d5] at hi; exact hi, .inl rfl⟩]
  simp only [Out.ok_bind, HOSTBYTES]
  rw [copyN_all oh _ 256 hoh (by simp; omega)]
  rfl

/-- C05, call without a port buffer, rejection. -/
theorem c05_noport_rejects (ip6 : Bytes → Bool) (s rest oh : Bytes) (hs : NoNul s)
    (hoh : oh.length = 256)
    (hno : ¬ ∃ h p lit, SplitOf s h p lit ∧ (lit = true → ip6 h = true) ∧ h.length ≤ 255) :
    parsehostport ip6 oh none (some (cstr s rest)) = .ok (0, oh.set 0 0, none) := by
  unfold parsehostport
  rcases split_sound s rest hs with e | ⟨sp, h, p, lit, e, hsp, ⟨t1, d1⟩, d2, ⟨t2, d3⟩, d4, d5⟩
  · simp only [e, Out.ok_bind]
    exact errExit_none oh hoh
  · have nn := splitOf_noNul hs hsp
    simp only [e, Out.ok_bind, Option.isNone_none, if_true]
    rw [fill_ok ip6 _ { sp with portlen := 0 } h [] t1 (p ++ t2) d1 d2 (by simpa using d3) rfl nn.1 .nil,
      if_neg]
    · simp only [Out.ok_bind]
      exact errExit_none oh hoh
    · rintro ⟨g1, g2, -⟩
      exact hno ⟨h, p, lit, hsp, by rw [← d5]; exact g2, g1⟩

/-- C06: whatever the input string, the call neither reads past its terminator
nor writes outside the two buffers; both outputs end up as terminated strings
inside their buffers, and after a failure both are empty. -/
theorem c06_bounds (ip6 : Bytes → Bool) (s rest oh op : Bytes) (hs : NoNul s)
    (hoh : oh.length = 256) (hop : op.length = 6) :
    ∃ v oh' op' h p, parsehostport ip6 oh (some op) (some (cstr s rest)) = .ok (v, oh', some op') ∧
      oh'.length = 256 ∧ op'.length = 6 ∧ cstrOf oh' = .ok h ∧ cstrOf op' = .ok p ∧
      ((v = 1 ∧ Parts ip6 s h p) ∨ (v = 0 ∧ h = [] ∧ p = [])) := by
  by_cases hx : ∃ h p, Parts ip6 s h p ∧ h.length ≤ 255
  · obtain ⟨h, p, hp, hl⟩ := hx
    obtain ⟨lit, hsp, hi, hpt⟩ := (parts_iff ip6 s h p).mp hp
    have nn := splitOf_noNul hs hsp
    have hpl : p.length ≤ 5 := by
      rcases hpt with rfl | g
      · simp
      · exact portText_len g
    refine ⟨1, _, _, h, p, c05_accepts ip6 s rest oh op h p hs hoh hop hp hl, ?_, ?_, ?_, ?_,
      .inl ⟨rfl, hp⟩⟩
    · simp; omega
    · simp; omega
    · rw [pad_cstr h 256 (by omega)]; exact cstrOf_cstr _ _ nn.1
    · rw [pad_cstr p 6 (by omega)]; exact cstrOf_cstr _ _ nn.2
  · refine ⟨0, _, _, [], [], c05_rejects ip6 s rest oh op hs hoh hop hx, ?_, ?_, ?_, ?_,
      .inr ⟨rfl, rfl, rfl⟩⟩
    · simpa using hoh
    · simpa using hop
    · cases oh with
      | nil => simp at hoh
      | cons a oh => simp [cstrOf]
    · cases op with
      | nil => simp at hop
      | cons a op => simp [cstrOf]

/-- C06: a NULL string is rejected the same way. -/
theorem c06_null (ip6 : Bytes → Bool) (oh op : Bytes) (hoh : oh.length = 256) (hop : op.length = 6) :
    parsehostport ip6 oh (some op) none = .ok (0, oh.set 0 0, some (op.set 0 0)) :=
  errExit_some oh op hoh hop

/-! Satisfiability of the hypotheses, and the parser at work. -/

example : Parts (fun _ => false) b!"mx.example:25" b!"mx.example" b!"25" :=
  .hostPort (h := b!"mx.example") (p := b!"25") (by decide) (by decide) (by decide)
    ⟨⟨by decide, by decide, by decide⟩, by decide⟩

example : Parts (fun h => h == b!"::1") b!"[::1]:25" b!"::1" b!"25" :=
  .bracketedPort (h := b!"::1") (p := b!"25") (by decide) (by decide) (by decide)
    ⟨⟨by decide, by decide, by decide⟩, by decide⟩

example : ¬ ∃ h p, Parts (fun _ => false) b!"::1" h p ∧ h.length ≤ 255 := by
  rintro ⟨h, p, hp, -⟩
  have h1 := c05_pieces _ _ _ _ hp
  obtain ⟨h1, h3, h4, h5⟩ := h1
  have : c! ':' ∉ h := fun g => by simpa using h5 g
  rcases h1 with rfl | h1 | h1 | h1
  · exact this (by decide)
  · cases h with
    | nil => exact h3 rfl
    | cons a h =>
      simp at h1
      exact this (by simp [← h1.1])
  · simp at h1
  · simp at h1

end HostPort
