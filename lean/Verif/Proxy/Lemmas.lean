import Verif.BaseLemmas
import Verif.Num.Props
import Verif.Str.Lemmas
import Verif.HostPort.Lemmas
import Verif.Buffer.Lemmas
import Verif.Proxy.Spec
namespace Proxy
open Io Num.Spec

/-- No space and no NUL. -/
def Clean (s : Bytes) : Prop := ∀ b ∈ s, b ≠ c! ' ' ∧ b ≠ 0

theorem Clean.noNul {s : Bytes} (h : Clean s) : NoNul s := fun b hb => (h b hb).2
theorem Clean.nosp {s : Bytes} (h : Clean s) : c! ' ' ∉ s := fun hb => (h _ hb).1 rfl

theorem wr_at (pre : Bytes) (f : Bytes) (s z : Byte) (more : Bytes) (n : Nat)
    (h : n = pre.length + f.length) :
    wr (pre ++ (f ++ s :: more)) n z = .ok (pre ++ (f ++ z :: more)) := by
  have := wr_append (pre ++ f) more s z
  rw [List.length_append, List.append_assoc, List.append_assoc] at this
  rw [h]; exact this

theorem chr_stop (f more : Bytes) (s c : Byte) (hf : ∀ b ∈ f, b ≠ c ∧ b ≠ 0) (hs : s = c ∨ s = 0) :
    Str.str_chr (f ++ s :: more) c = .ok f.length := by
  have h1 : NoNul f := fun b hb => (hf b hb).2
  have h2 : c ∉ f := fun hb => (hf _ hb).1 rfl
  rcases hs with rfl | rfl
  · exact Str.str_chr_hit f more _ h1 h2
  · exact Str.str_chr_free f more c h1 h2

theorem cut_sep (pre f more : Bytes) (s : Byte) (hf : Clean f) (hs : s = c! ' ' ∨ s = 0) :
    cut (pre ++ (f ++ s :: more)) pre.length =
      .ok (pre ++ (f ++ 0 :: more), pre.length + f.length + 1) := by
  unfold cut
  rw [List.drop_left, chr_stop f more s _ hf hs]
  simp only [Out.ok_bind]
  rw [wr_at pre f s 0 more _ rfl]
  rfl

/-- First separator of the rest of the line. -/
theorem split_sep (t : Bytes) : Clean t ∨ ∃ f s t', t = f ++ s :: t' ∧ Clean f ∧ (s = c! ' ' ∨ s = 0) := by
  rcases split_first (fun b => b == c! ' ' || b == 0) t with h | ⟨f, s, t', h1, h2, h3⟩
  · left
    intro b hb
    have := h b hb
    simp at this
    exact this
  · right
    refine ⟨f, s, t', h1, ?_, by simpa using h3⟩
    intro b hb
    have := h2 b hb
    simp at this
    exact this

/-- `op` is a function of the string it points at. -/
def Pure (op : Bytes → Out (Option Bytes)) (f : Bytes → Option Bytes) : Prop :=
  ∀ s rest, NoNul s → op (cstr s rest) = .ok (f s)

theorem parseip4_pure (C : IpCodec) : Pure (parseip4_ C) (fun s => (C.pton4 s).map (v4prefix ++ ·)) := by
  intro s rest hs
  unfold parseip4_
  rw [cstrOf_cstr s rest hs]
  simp only [Out.ok_bind]
  cases C.pton4 s <;> rfl

theorem parseip6_pure (C : IpCodec) : Pure (parseip6_ C) C.pton6 := by
  intro s rest hs
  unfold parseip6_
  rw [cstrOf_cstr s rest hs]
  rfl

theorem numeral_chars {s : Bytes} (h : Numeral s) (b : Byte) (hb : b ∈ s) : 48 ≤ b.toNat ∧ b.toNat ≤ 57 :=
  h.digits b hb

theorem port_some (s rest : Bytes) (hs : NoNul s) (p : Byte × Byte) :
    Num.parseport_ (some (cstr s rest)) = .ok (some p) ↔ PortOf s p := by
  have := Num.c02_parseport_accepts s rest hs p.1 p.2
  simpa [Num.parseport, PortOf, portVal, Num.portNum] using this

theorem port_total (s rest : Bytes) (hs : NoNul s) :
    ∃ r, Num.parseport_ (some (cstr s rest)) = .ok r := by
  have := Num.c02_parseport_total s rest hs
  simp only [Num.parseport] at this
  rcases this with h | ⟨a, b, h⟩
  · exact ⟨_, h⟩
  · exact ⟨_, h⟩

theorem clean_of {s : Bytes} (P : Byte → Prop) (h : ∀ b ∈ s, P b) (hp : ∀ b, P b → b ≠ c! ' ' ∧ b ≠ 0) :
    Clean s := fun b hb => hp b (h b hb)

theorem ipchar_ne (b : Byte) : IpChar b → b ≠ c! ' ' ∧ b ≠ 0 ∧ b ≠ c! '\n' ∧ b ≠ c! '\r' := by
  intro h
  refine ⟨?_, ?_, ?_, ?_⟩ <;> (rintro rfl; revert h; decide)

theorem digit_ne (b : Byte) : (48 ≤ b.toNat ∧ b.toNat ≤ 57) → b ≠ c! ' ' ∧ b ≠ 0 ∧ b ≠ c! '\n' ∧ b ≠ c! '\r' := by
  intro h
  refine ⟨?_, ?_, ?_, ?_⟩ <;> (rintro rfl; revert h; decide)

/-- The fields of the rest of the line. -/
structure Shape (f : Bytes → Option Bytes) (t : Bytes) (e : Ends) (src dst sp dp tail : Bytes)
    (s1 s2 s3 : Byte) : Prop where
  split : t = src ++ s1 :: (dst ++ s2 :: (sp ++ s3 :: (dp ++ tail)))
  src : f src = some e.remoteip
  dst : f dst = some e.localip
  sp : PortOf sp e.remoteport
  dp : PortOf dp e.localport
  s1 : s1 = c! ' ' ∨ s1 = 0
  s2 : s2 = c! ' ' ∨ s2 = 0
  s3 : s3 = c! ' ' ∨ s3 = 0
  tail : tail = [] ∨ ∃ x t, tail = x :: t ∧ (x = c! '\r' ∨ x = 0)

/-- the last field, given its decomposition -/
theorem last_ok (pre dp tail z : Bytes) (hdp : ∀ b ∈ dp, b ≠ c! '\r' ∧ b ≠ 0) (hnl : c! '\n' ∉ dp ++ tail)
    (htail : tail = [] ∨ ∃ x t, tail = x :: t ∧ (x = c! '\r' ∨ x = 0)) :
    ∃ nl m1 cr m2 rest, Str.str_chr ((pre ++ ((dp ++ tail) ++ c! '\n' :: 0 :: z)).drop pre.length) (c! '\n') = .ok nl ∧
      wr (pre ++ ((dp ++ tail) ++ c! '\n' :: 0 :: z)) (pre.length + nl) 0 = .ok m1 ∧
      Str.str_chr (m1.drop pre.length) (c! '\r') = .ok cr ∧
      wr m1 (pre.length + cr) 0 = .ok m2 ∧
      m2.drop pre.length = cstr dp rest := by
  -- first NUL in the tail, if any
  have key : ∃ nl tl', (∃ m, Str.str_chr ((dp ++ tail) ++ c! '\n' :: 0 :: z) (c! '\n') = .ok nl ∧
      wr (pre ++ ((dp ++ tail) ++ c! '\n' :: 0 :: z)) (pre.length + nl) 0 = .ok (pre ++ (dp ++ m)) ∧
      m = tl') ∧ ∃ x t, tl' = x :: t ∧ (x = c! '\r' ∨ x = 0) := by
    have hno : ∀ b ∈ dp ++ tail, b ≠ c! '\n' := fun b hb h => hnl (h ▸ hb)
    rcases split_first (fun b => b == 0) tail with h | ⟨g, s, t', h1, h2, h3⟩
    · -- no NUL: cut at LF
      refine ⟨(dp ++ tail).length, tail ++ 0 :: 0 :: z, ⟨_, ?_, ?_, rfl⟩, ?_⟩
      · apply chr_stop _ _ _ _ _ (.inl rfl)
        intro b hb
        refine ⟨hno b hb, ?_⟩
        rcases List.mem_append.mp hb with hb | hb
        · exact (hdp b hb).2
        · simpa using h b hb
      · rw [wr_at pre (dp ++ tail) (c! '\n') 0 (0 :: z) _ rfl]; simp
      · rcases htail with rfl | ⟨x, t, rfl, hx⟩
        · exact ⟨0, 0 :: z, rfl, .inr rfl⟩
        · exact ⟨x, t ++ 0 :: 0 :: z, rfl, hx⟩
    · have hs : s = 0 := by simpa using h3
      subst hs
      subst h1
      refine ⟨(dp ++ g).length, (g ++ 0 :: t') ++ c! '\n' :: 0 :: z, ⟨_, ?_, ?_, rfl⟩, ?_⟩
      · have : (dp ++ (g ++ 0 :: t')) ++ c! '\n' :: 0 :: z = (dp ++ g) ++ 0 :: (t' ++ c! '\n' :: 0 :: z) := by simp
        rw [this]
        apply chr_stop _ _ _ _ _ (.inr rfl)
        intro b hb
        refine ⟨hno b ?_, ?_⟩
        · rcases List.mem_append.mp hb with hb | hb
          · simp [hb]
          · simp [hb]
        · rcases List.mem_append.mp hb with hb | hb
          · exact (hdp b hb).2
          · simpa using h2 b hb
      · have e1 : (dp ++ (g ++ 0 :: t')) ++ c! '\n' :: 0 :: z = (dp ++ g) ++ 0 :: (t' ++ c! '\n' :: 0 :: z) := by simp
        rw [e1, wr_at pre (dp ++ g) 0 0 _ _ rfl]; simp
      · rcases htail with h | ⟨x, t, h, hx⟩
        · simp at h
        · exact ⟨x, t ++ c! '\n' :: 0 :: z, by rw [h]; rfl, hx⟩
  obtain ⟨nl, tl', ⟨m, k1, k2, rfl⟩, x, t, rfl, hx⟩ := key
  refine ⟨nl, _, dp.length, pre ++ (dp ++ 0 :: t), t, ?_, k2, ?_, ?_, ?_⟩
  · rw [List.drop_left]; exact k1
  · rw [List.drop_left]; exact chr_stop _ _ _ _ hdp hx
  · exact wr_at pre dp x 0 t _ rfl
  · rw [List.drop_left]; rfl

theorem ok_bind' {α β} (x : Out α) (a : α) (f : α → Out β) (h : x = .ok a) : (x >>= f) = f a := by
  rw [h]; rfl

theorem drop_field (pre f more : Bytes) : (pre ++ (f ++ 0 :: more)).drop pre.length = cstr f more := by
  rw [List.drop_left]; rfl

/-- next position after a cut field -/
theorem regroup (pre f more : Bytes) : pre ++ (f ++ (0 : Byte) :: more) = (pre ++ (f ++ [0])) ++ more := by simp
theorem regroup_len (pre f : Bytes) : pre.length + f.length + 1 = (pre ++ (f ++ [(0 : Byte)])).length := by
  simp; omega

theorem fields_some (op : Bytes → Out (Option Bytes)) (f : Bytes → Option Bytes) (hop : Pure op f)
    (hf : ∀ s a, f s = some a → ∀ b ∈ s, IpChar b)
    (pre t z : Bytes) (ht : c! '\n' ∉ t) (e : Ends) (src dst sp dp tail : Bytes) (s1 s2 s3 : Byte)
    (h : Shape f t e src dst sp dp tail s1 s2 s3) :
    fields op (pre ++ (t ++ c! '\n' :: 0 :: z)) pre.length = .ok (some e) := by
  have c1 : Clean src := fun b hb => ⟨(ipchar_ne b (hf _ _ h.src b hb)).1, (ipchar_ne b (hf _ _ h.src b hb)).2.1⟩
  have c2 : Clean dst := fun b hb => ⟨(ipchar_ne b (hf _ _ h.dst b hb)).1, (ipchar_ne b (hf _ _ h.dst b hb)).2.1⟩
  have c3 : Clean sp := fun b hb => ⟨(digit_ne b (numeral_chars h.sp.1 b hb)).1, (digit_ne b (numeral_chars h.sp.1 b hb)).2.1⟩
  have c4 : ∀ b ∈ dp, b ≠ c! '\r' ∧ b ≠ 0 := fun b hb =>
    ⟨(digit_ne b (numeral_chars h.dp.1 b hb)).2.2.2, (digit_ne b (numeral_chars h.dp.1 b hb)).2.1⟩
  have hnl : c! '\n' ∉ dp ++ tail := by
    intro hb; apply ht; rw [h.split]; simp at hb ⊢; rcases hb with hb | hb <;> simp [hb]
  unfold fields
  have e0 : t ++ c! '\n' :: 0 :: z =
      src ++ s1 :: (dst ++ s2 :: (sp ++ s3 :: ((dp ++ tail) ++ c! '\n' :: 0 :: z))) := by
    rw [h.split]; simp
  rw [e0, ok_bind' _ _ _ (cut_sep pre src _ s1 c1 h.s1)]
  simp only []
  rw [drop_field, ok_bind' _ _ _ (hop _ _ c1.noNul), h.src]
  simp only []
  rw [regroup, regroup_len]
  generalize hp1 : pre ++ (src ++ [0]) = pre1
  rw [ok_bind' _ _ _ (cut_sep pre1 dst _ s2 c2 h.s2)]
  simp only []
  rw [drop_field, ok_bind' _ _ _ (hop _ _ c2.noNul), h.dst]
  simp only []
  rw [regroup, regroup_len]
  generalize hp2 : pre1 ++ (dst ++ [0]) = pre2
  rw [ok_bind' _ _ _ (cut_sep pre2 sp _ s3 c3 h.s3)]
  simp only []
  rw [drop_field, ok_bind' _ _ _ ((port_some _ _ c3.noNul _).mpr h.sp)]
  simp only []
  rw [regroup, regroup_len]
  generalize hp3 : pre2 ++ (sp ++ [0]) = pre3
  obtain ⟨nl, m1, cr, m2, rest, l1, l2, l3, l4, l5⟩ := last_ok pre3 dp tail z c4 hnl h.tail
  rw [ok_bind' _ _ _ l1, ok_bind' _ _ _ l2, ok_bind' _ _ _ l3, ok_bind' _ _ _ l4, l5,
    ok_bind' _ _ _ ((port_some _ _ (fun b hb => (c4 b hb).2) _).mpr h.dp)]
  rfl

theorem fields_sound (op : Bytes → Out (Option Bytes)) (f : Bytes → Option Bytes) (hop : Pure op f)
    (hf : ∀ s a, f s = some a → ∀ b ∈ s, IpChar b)
    (pre t z : Bytes) (ht : c! '\n' ∉ t) :
    fields op (pre ++ (t ++ c! '\n' :: 0 :: z)) pre.length = .ok none ∨
    ∃ e src dst sp dp tail s1 s2 s3, Shape f t e src dst sp dp tail s1 s2 s3 := by
  have hfnl : ∀ s, c! '\n' ∈ s → f s = none := by
    intro s hs
    cases h : f s with
    | none => rfl
    | some a => exact absurd rfl (ipchar_ne _ (hf _ _ h _ hs)).2.2.1
  have hpnl : ∀ s rest, NoNul s → c! '\n' ∈ s → Num.parseport_ (some (cstr s rest)) = .ok none := by
    intro s rest hn hs
    obtain ⟨r, hr⟩ := port_total s rest hn
    cases r with
    | none => exact hr
    | some p => exact absurd rfl (digit_ne _ (numeral_chars ((port_some _ _ hn _).mp hr).1 _ hs)).2.2.1
  have hlf : ∀ {t : Bytes}, Clean t → Clean (t ++ [c! '\n']) := by
    intro t h b hb
    rcases List.mem_append.mp hb with hb | hb
    · exact h b hb
    · simp only [List.mem_singleton] at hb; subst hb; decide
  unfold fields
  rcases split_sep t with hc | ⟨src, s1, t1, rfl, c1, hs1⟩
  · left
    have : t ++ c! '\n' :: 0 :: z = (t ++ [c! '\n']) ++ 0 :: z := by simp
    rw [this, ok_bind' _ _ _ (cut_sep pre _ _ 0 (hlf hc) (.inr rfl))]
    simp only []
    rw [drop_field, ok_bind' _ _ _ (hop _ _ (hlf hc).noNul), hfnl _ (by simp)]
    rfl
  have e0 : (src ++ s1 :: t1) ++ c! '\n' :: 0 :: z = src ++ s1 :: (t1 ++ c! '\n' :: 0 :: z) := by simp
  rw [e0, ok_bind' _ _ _ (cut_sep pre src _ s1 c1 hs1)]
  simp only []
  rw [drop_field, ok_bind' _ _ _ (hop _ _ c1.noNul)]
  cases hsrc : f src with
  | none => left; rfl
  | some a1 =>
  simp only []
  rw [regroup, regroup_len]
  generalize hp1 : pre ++ (src ++ [0]) = pre1
  rcases split_sep t1 with hc | ⟨dst, s2, t2, rfl, c2, hs2⟩
  · left
    have : t1 ++ c! '\n' :: 0 :: z = (t1 ++ [c! '\n']) ++ 0 :: z := by simp
    rw [this, ok_bind' _ _ _ (cut_sep pre1 _ _ 0 (hlf hc) (.inr rfl))]
    simp only []
    rw [drop_field, ok_bind' _ _ _ (hop _ _ (hlf hc).noNul), hfnl _ (by simp)]
    rfl
  have e0 : (dst ++ s2 :: t2) ++ c! '\n' :: 0 :: z = dst ++ s2 :: (t2 ++ c! '\n' :: 0 :: z) := by simp
  rw [e0, ok_bind' _ _ _ (cut_sep pre1 dst _ s2 c2 hs2)]
  simp only []
  rw [drop_field, ok_bind' _ _ _ (hop _ _ c2.noNul)]
  cases hdst : f dst with
  | none => left; rfl
  | some a2 =>
  simp only []
  rw [regroup, regroup_len]
  generalize hp2 : pre1 ++ (dst ++ [0]) = pre2
  rcases split_sep t2 with hc | ⟨sp, s3, t3, rfl, c3, hs3⟩
  · left
    have : t2 ++ c! '\n' :: 0 :: z = (t2 ++ [c! '\n']) ++ 0 :: z := by simp
    rw [this, ok_bind' _ _ _ (cut_sep pre2 _ _ 0 (hlf hc) (.inr rfl))]
    simp only []
    rw [drop_field, ok_bind' _ _ _ (hpnl _ _ (hlf hc).noNul (by simp))]
    rfl
  have e0 : (sp ++ s3 :: t3) ++ c! '\n' :: 0 :: z = sp ++ s3 :: (t3 ++ c! '\n' :: 0 :: z) := by simp
  rw [e0, ok_bind' _ _ _ (cut_sep pre2 sp _ s3 c3 hs3)]
  simp only []
  rw [drop_field]
  obtain ⟨rp, hrp⟩ := port_total sp (t3 ++ c! '\n' :: 0 :: z) c3.noNul
  rw [ok_bind' _ _ _ hrp]
  cases rp with
  | none => left; rfl
  | some p1 =>
  simp only []
  rw [regroup, regroup_len]
  generalize hp3 : pre2 ++ (sp ++ [0]) = pre3
  have hnl3 : c! '\n' ∉ t3 := by
    intro hb; apply ht; simp [hb]
  -- the last field
  have hsplit : ∃ dp tail, t3 = dp ++ tail ∧ (∀ b ∈ dp, b ≠ c! '\r' ∧ b ≠ 0) ∧
      (tail = [] ∨ ∃ x t, tail = x :: t ∧ (x = c! '\r' ∨ x = 0)) := by
    rcases split_first (fun b => b == c! '\r' || b == 0) t3 with h | ⟨g, s, t', h1, h2, h3⟩
    · refine ⟨t3, [], by simp, ?_, .inl rfl⟩
      intro b hb; have := h b hb; simp at this; exact this
    · refine ⟨g, s :: t', h1, ?_, .inr ⟨s, t', rfl, by simpa using h3⟩⟩
      intro b hb; have := h2 b hb; simp at this; exact this
  obtain ⟨dp, tail, rfl, c4, htail⟩ := hsplit
  obtain ⟨nl, m1, cr, m2, rest, l1, l2, l3, l4, l5⟩ := last_ok pre3 dp tail z c4 hnl3 htail
  rw [ok_bind' _ _ _ l1, ok_bind' _ _ _ l2, ok_bind' _ _ _ l3, ok_bind' _ _ _ l4, l5]
  have hn4 : NoNul dp := fun b hb => (c4 b hb).2
  obtain ⟨lp, hlp⟩ := port_total dp rest hn4
  rw [ok_bind' _ _ _ hlp]
  cases lp with
  | none => left; rfl
  | some p2 =>
    right
    exact ⟨⟨a2, p2, a1, p1⟩, src, dst, sp, dp, tail, s1, s2, s3, rfl, hsrc, hdst,
      (port_some _ _ c3.noNul _).mp hrp, (port_some _ _ hn4 _).mp hlp, hs1, hs2, hs3, htail⟩

theorem start_ok (w L z : Bytes) (hw : NoNul w) (hnl : c! '\n' ∉ w) :
    Str.str_start (L ++ c! '\n' :: 0 :: z) (w ++ [0]) = .ok (decide (w <+: L)) := by
  induction w generalizing L with
  | nil =>
    cases L with
    | nil => simp [Str.str_start]
    | cons a L =>
      simp only [List.cons_append, List.nil_append, Str.str_start]
      by_cases ha : a = 0 <;> simp [ha]
  | cons b w ih =>
    simp only [List.mem_cons, not_or] at hnl
    cases L with
    | nil =>
      simp only [List.nil_append, List.cons_append, Str.str_start]
      rw [if_neg (by decide), if_pos hnl.1]
      simp [hw.head]
    | cons a L =>
      simp only [List.cons_append, Str.str_start]
      by_cases ha : a = 0
      · rw [if_pos ha]
        have : ¬ (b = a) := fun h => hw.head (h.trans ha)
        simp [hw.head, this]
      · rw [if_neg ha]
        by_cases hab : a ≠ b
        · rw [if_pos hab]
          have : ¬ (b = a) := fun h => hab h.symm
          simp [hw.head, this]
        · rw [if_neg hab, ih L hw.tail hnl.2]
          have : b = a := (Classical.not_not.mp hab).symm
          simp [this]

theorem dispatch_ok (C : IpCodec) (hC : C.Lawful) (L z : Bytes) (hL : c! '\n' ∉ L) :
    ∃ r, dispatch C (L ++ c! '\n' :: 0 :: z) = .ok r ∧ ∀ e, r = some e ↔ Loose C L e := by
  have w1 := start_ok b!"PROXY UNKNOWN" L z (by unfold NoNul; decide) (by decide)
  have w2 := start_ok b!"PROXY TCP4 " L z (by unfold NoNul; decide) (by decide)
  have w3 := start_ok b!"PROXY TCP6 " L z (by unfold NoNul; decide) (by decide)
  have hprefix : ∀ (u v : Bytes), u.length ≤ L.length → u <+: L → v <+: L → v.length ≤ u.length → v <+: u :=
    fun u v _ h1 h2 h3 => List.prefix_of_prefix_length_le h2 h1 h3
  have wordpre : ∀ six src s1 rest, word six <+: word six ++ (src ++ s1 :: rest) :=
    fun _ _ _ _ => ⟨_, rfl⟩
  have p4 : Pure (parseip4_ C) _ := parseip4_pure C
  have p6 : Pure (parseip6_ C) _ := parseip6_pure C
  have f4 : ∀ s a, (fun s => (C.pton4 s).map (v4prefix ++ ·)) s = some a → ∀ b ∈ s, IpChar b := by
    intro s a h
    simp only [Option.map_eq_some_iff] at h
    obtain ⟨x, hx, -⟩ := h
    exact (hC.in4 _ _ hx).2
  have f6 : ∀ s a, C.pton6 s = some a → ∀ b ∈ s, IpChar b := fun s a h => (hC.in6 _ _ h).2
  unfold dispatch
  rw [ok_bind' _ _ _ w1]
  by_cases h1 : b!"PROXY UNKNOWN" <+: L
  · rw [if_pos (by simpa using h1)]
    refine ⟨_, rfl, fun e => ?_⟩
    obtain ⟨t, rfl⟩ := h1
    constructor
    · rintro h
      cases h
      exact .unknown
    · intro h
      generalize hM : b!"PROXY UNKNOWN" ++ t = M at h
      cases h with
      | unknown => rfl
      | tcp =>
        rename_i six _ _ _ _ _ _ _ _ _ _ _ _ _ _ _ _
        exfalso
        cases six <;> simp [word] at hM
  · rw [if_neg (by simpa using h1), ok_bind' _ _ _ w2]
    by_cases h2 : b!"PROXY TCP4 " <+: L
    · rw [if_pos (by simpa using h2)]
      obtain ⟨t, rfl⟩ := h2
      have ht : c! '\n' ∉ t := fun h => hL (by simp [h])
      have he : b!"PROXY TCP4 " ++ t ++ c! '\n' :: 0 :: z = b!"PROXY TCP4 " ++ (t ++ c! '\n' :: 0 :: z) := by simp
      rw [he]
      have snd := fields_sound _ _ p4 f4 b!"PROXY TCP4 " t z ht
      have cmp := fields_some _ _ p4 f4 b!"PROXY TCP4 " t z ht
      have hl : (b!"PROXY TCP4 ").length = 11 := by decide
      rw [hl] at snd cmp
      have toShape : ∀ e, Loose C (b!"PROXY TCP4 " ++ t) e → ∃ src dst sp dp tail s1 s2 s3,
          Shape (fun s => (C.pton4 s).map (v4prefix ++ ·)) t e src dst sp dp tail s1 s2 s3 := by
        intro e h
        generalize hM : b!"PROXY TCP4 " ++ t = M at h
        cases h with
        | unknown => exfalso; simp at hM
        | tcp a1 a2 a3 a4 a5 a6 a7 a8 =>
          rename_i six src dst sp dp s1 s2 s3 tail
          cases six with
          | true => exfalso; simp [word] at hM
          | false =>
            have hM' := List.append_cancel_left hM
            refine ⟨src, dst, sp, dp, tail, s1, s2, s3, hM', ?_, ?_, a3, a4, a5, a6, a7, a8⟩
            · generalize e.remoteip = x at a1; cases a1 with | v4 h => simp [h, v4prefix]
            · generalize e.localip = x at a2; cases a2 with | v4 h => simp [h, v4prefix]
      have ofShape : ∀ e src dst sp dp tail s1 s2 s3,
          Shape (fun s => (C.pton4 s).map (v4prefix ++ ·)) t e src dst sp dp tail s1 s2 s3 →
          Loose C (b!"PROXY TCP4 " ++ t) e := by
        intro e src dst sp dp tail s1 s2 s3 h
        have mk : ∀ (x a : Bytes), (C.pton4 x).map (v4prefix ++ ·) = some a → AddrOf C false x a := by
          intro x a hx
          simp only [Option.map_eq_some_iff] at hx
          obtain ⟨y, hy, rfl⟩ := hx
          exact .v4 hy
        rw [h.split]
        exact Loose.tcp (six := false) (mk _ _ h.src) (mk _ _ h.dst) h.sp h.dp h.s1 h.s2 h.s3 h.tail
      rcases snd with snd | ⟨e, src, dst, sp, dp, tail, s1, s2, s3, sh⟩
      · refine ⟨none, snd, fun e => ?_⟩
        constructor
        · intro h; cases h
        · intro h
          obtain ⟨src, dst, sp, dp, tail, s1, s2, s3, sh⟩ := toShape e h
          have := cmp _ _ _ _ _ _ _ _ _ sh
          rw [snd] at this
          cases this
      · have h0 := cmp _ _ _ _ _ _ _ _ _ sh
        refine ⟨some e, h0, fun e' => ?_⟩
        constructor
        · intro h; cases h; exact ofShape _ _ _ _ _ _ _ _ _ sh
        · intro h
          obtain ⟨src, dst, sp, dp, tail, s1, s2, s3, sh⟩ := toShape e' h
          have := cmp _ _ _ _ _ _ _ _ _ sh
          rw [h0] at this
          exact Out.ok.inj this
    · rw [if_neg (by simpa using h2), ok_bind' _ _ _ w3]
      by_cases h3 : b!"PROXY TCP6 " <+: L
      · rw [if_pos (by simpa using h3)]
        obtain ⟨t, rfl⟩ := h3
        have ht : c! '\n' ∉ t := fun h => hL (by simp [h])
        have he : b!"PROXY TCP6 " ++ t ++ c! '\n' :: 0 :: z = b!"PROXY TCP6 " ++ (t ++ c! '\n' :: 0 :: z) := by simp
        rw [he]
        have snd := fields_sound _ _ p6 f6 b!"PROXY TCP6 " t z ht
        have cmp := fields_some _ _ p6 f6 b!"PROXY TCP6 " t z ht
        have hl : (b!"PROXY TCP6 ").length = 11 := by decide
        rw [hl] at snd cmp
        have toShape : ∀ e, Loose C (b!"PROXY TCP6 " ++ t) e → ∃ src dst sp dp tail s1 s2 s3,
            Shape C.pton6 t e src dst sp dp tail s1 s2 s3 := by
          intro e h
          generalize hM : b!"PROXY TCP6 " ++ t = M at h
          cases h with
          | unknown => exfalso; simp at hM
          | tcp a1 a2 a3 a4 a5 a6 a7 a8 =>
            rename_i six src dst sp dp s1 s2 s3 tail
            cases six with
            | false => exfalso; simp [word] at hM
            | true =>
              have hM' := List.append_cancel_left hM
              refine ⟨src, dst, sp, dp, tail, s1, s2, s3, hM', ?_, ?_, a3, a4, a5, a6, a7, a8⟩
              · cases a1 with | v6 h => simp [h]
              · cases a2 with | v6 h => simp [h]
        have ofShape : ∀ e src dst sp dp tail s1 s2 s3,
            Shape C.pton6 t e src dst sp dp tail s1 s2 s3 →
            Loose C (b!"PROXY TCP6 " ++ t) e := by
          intro e src dst sp dp tail s1 s2 s3 h
          rw [h.split]
          exact Loose.tcp (six := true) (.v6 h.src) (.v6 h.dst) h.sp h.dp h.s1 h.s2 h.s3 h.tail
        rcases snd with snd | ⟨e, src, dst, sp, dp, tail, s1, s2, s3, sh⟩
        · refine ⟨none, snd, fun e => ?_⟩
          constructor
          · intro h; cases h
          · intro h
            obtain ⟨src, dst, sp, dp, tail, s1, s2, s3, sh⟩ := toShape e h
            have := cmp _ _ _ _ _ _ _ _ _ sh
            rw [snd] at this
            cases this
        · have h0 := cmp _ _ _ _ _ _ _ _ _ sh
          refine ⟨some e, h0, fun e' => ?_⟩
          constructor
          · intro h; cases h; exact ofShape _ _ _ _ _ _ _ _ _ sh
          · intro h
            obtain ⟨src, dst, sp, dp, tail, s1, s2, s3, sh⟩ := toShape e' h
            have := cmp _ _ _ _ _ _ _ _ _ sh
            rw [h0] at this
            exact Out.ok.inj this
      · rw [if_neg (by simpa using h3)]
        refine ⟨none, rfl, fun e => ?_⟩
        constructor
        · intro h; cases h
        · intro h
          exfalso
          cases h with
          | unknown => exact h1 ⟨_, rfl⟩
          | tcp =>
            rename_i six _ _ _ _ _ _ _ _ _ _ _ _ _ _ _ _
            cases six
            · exact h2 ⟨_, rfl⟩
            · exact h3 ⟨_, rfl⟩

/-! ### The reading loop -/

/-- An event that reports a read error. -/
def Bad (ev : RdEv) : Prop := ev = .eagain ∨ ∃ e, ev = .err e

theorem getc_nobuf (fd : RFd) :
    Buffer.getc (Buffer.iinit [] fd) = .ok none ∨
    ∃ r d fd', Buffer.getc (Buffer.iinit [] fd) = .ok (some (r, d, Buffer.iinit [] fd')) ∧
      fd.src = d ++ fd'.src ∧
      ((r = 1 ∧ ∃ c, d = [c]) ∨ (r ≠ 1 ∧ d = [] ∧ (fd.src = [] ∨ ∃ ev ∈ fd.evs, Bad ev))) ∧
      (∃ u, fd.evs = u ++ fd'.evs) := by
  have h0 : Buffer.getc (Buffer.iinit [] fd) = match Buffer.oneread fd 1 with
      | none => .ok none
      | some (r, g, fd') => .ok (some (r, g, Buffer.iinit [] fd')) := by
    unfold Buffer.getc Buffer.bget Buffer.iinit
    simp
    cases Buffer.oneread fd 1 <;> rfl
  rw [h0]
  cases h : Buffer.oneread fd 1 with
  | none => left; rfl
  | some v =>
    obtain ⟨r, g, fd'⟩ := v
    obtain ⟨h1, h2, h3⟩ := Buffer.onereadLoop_ok _ _ _ _ _ _ h
    right
    refine ⟨r, g, fd', rfl, h1, ?_, Buffer.oneread_evs _ _ _ _ _ _ h⟩
    rcases h3 with ⟨h3, h4⟩ | ⟨h3, h4, u, ev, h5, h6⟩
    · cases g with
      | nil => exact .inr ⟨by simp [h3], rfl, .inl (h4 rfl (by omega))⟩
      | cons c g =>
        have : g = [] := List.length_eq_zero_iff.mp (by rw [List.length_cons] at h2; omega)
        subst this
        exact .inl ⟨by simpa using h3, c, rfl⟩
    · exact .inr ⟨by omega, h4, .inr ⟨ev, by rw [h5]; simp, h6⟩⟩

theorem readLoop_ok (k : Nat) (acc : Bytes) (fd : RFd) :
    readLoop k acc.length (acc ++ List.replicate (k + 1) 0) (Buffer.iinit [] fd) = .ok none ∨
    ∃ ok L buf fd', readLoop k acc.length (acc ++ List.replicate (k + 1) 0) (Buffer.iinit [] fd) =
        .ok (some (ok, acc.length + L.length, buf, Buffer.iinit [] fd')) ∧ c! '\n' ∉ L ∧
      (∃ u, fd.evs = u ++ fd'.evs) ∧
      ((ok = true ∧ L.length < k ∧ fd.src = L ++ c! '\n' :: fd'.src ∧
          buf = acc ++ (L ++ c! '\n' :: List.replicate (k - L.length) 0)) ∨
       (ok = true ∧ L.length = k ∧ fd.src = L ++ fd'.src ∧ buf = acc ++ (L ++ [0])) ∨
       (ok = false ∧ L.length < k ∧ fd.src = L ++ fd'.src ∧ (fd'.src = [] ∨ ∃ ev ∈ fd.evs, Bad ev))) := by
  induction k generalizing acc fd with
  | zero => exact .inr ⟨true, [], acc ++ List.replicate (0 + 1) 0, fd, by simp only [readLoop, List.length_nil, Nat.add_zero], by simp, ⟨[], rfl⟩, .inr (.inl ⟨rfl, rfl, rfl, by simp⟩)⟩
  | succ k ih =>
    rw [readLoop]
    rcases getc_nobuf fd with h | ⟨r, d, fd1, h1, h2, h3, u, h4⟩
    · left; rw [h]
    · rw [h1]
      simp only []
      rcases h3 with ⟨rfl, c, rfl⟩ | ⟨h3, rfl, h5⟩
      · rw [if_neg (by simp)]
        simp only [rd_cons_zero]
        have hw : wr (acc ++ List.replicate (k + 1 + 1) 0) acc.length c =
            .ok (acc ++ c :: List.replicate (k + 1) 0) := by
          rw [List.replicate_succ]; exact wr_append _ _ _ _
        rw [hw]
        simp only []
        by_cases hc : c = c! '\n'
        · rw [if_pos hc]
          right
          refine ⟨true, [], _, fd1, rfl, by simp, ⟨u, h4⟩, .inl ⟨rfl, by simp, ?_, ?_⟩⟩
          · rw [h2, hc]; rfl
          · rw [hc]; simp
        · rw [if_neg hc]
          have e1 : acc ++ c :: List.replicate (k + 1) 0 = (acc ++ [c]) ++ List.replicate (k + 1) 0 := by simp
          have e2 : acc.length + 1 = (acc ++ [c]).length := by simp
          rw [e1, e2]
          rcases ih (acc ++ [c]) fd1 with h | ⟨ok, L, buf, fd2, g1, g2, ⟨u2, g3⟩, g4⟩
          · exact .inl h
          · right
            refine ⟨ok, c :: L, buf, fd2, ?_, ?_, ⟨u ++ u2, by rw [h4, g3]; simp⟩, ?_⟩
            · rw [g1]
              simp only [List.length_append, List.length_cons, List.length_nil, Out.ok.injEq, Option.some.injEq, Prod.mk.injEq, true_and, and_true]
              omega
            · simp only [List.mem_cons, not_or]; exact ⟨fun h => hc h.symm, g2⟩
            · rcases g4 with ⟨q1, q2, q3, q4⟩ | ⟨q1, q2, q3, q4⟩ | ⟨q1, q2, q3, q4⟩
              · left
                refine ⟨q1, by simp; omega, by rw [h2, q3]; simp, ?_⟩
                rw [q4]; simp
              · right; left
                exact ⟨q1, by simp; omega, by rw [h2, q3]; simp, by rw [q4]; simp⟩
              · right; right
                refine ⟨q1, by simp; omega, by rw [h2, q3]; simp, ?_⟩
                rcases q4 with q4 | ⟨ev, q4, q5⟩
                · exact .inl q4
                · exact .inr ⟨ev, by rw [h4]; simp [q4], q5⟩
      · rw [if_pos h3]
        right
        refine ⟨false, [], _, fd1, rfl, by simp, ⟨u, h4⟩, .inr (.inr ⟨rfl, by simp, by rw [h2], ?_⟩)⟩
        rcases h5 with h5 | h5
        · left; rw [h5] at h2; simpa using h2.symm
        · exact .inr h5

/-- Everything `get` can do, for every stream and schedule. -/
theorem get_cases (C : IpCodec) (hC : C.Lawful) (fd : RFd) :
    get C fd = .ok none ∨
    ∃ r L fd', get C fd = .ok (some (r, fd')) ∧ c! '\n' ∉ L ∧ (∃ u, fd.evs = u ++ fd'.evs) ∧
      ((L.length < 127 ∧ fd.src = L ++ c! '\n' :: fd'.src ∧ ∀ e, r = some e ↔ Loose C L e) ∨
       (r = none ∧ L.length = 127 ∧ fd.src = L ++ fd'.src) ∨
       (r = none ∧ L.length < 127 ∧ fd.src = L ++ fd'.src ∧ (fd'.src = [] ∨ ∃ ev ∈ fd.evs, Bad ev))) := by
  unfold get
  rcases readLoop_ok (MAX - 1) [] fd with h | ⟨ok, L, buf, fd', h1, h2, h3, h4⟩
  · left
    have h : readLoop (MAX - 1) 0 (List.replicate MAX 0) (Buffer.iinit [] fd) = .ok none := h
    rw [h]; rfl
  · have h1 : readLoop (MAX - 1) 0 (List.replicate MAX 0) (Buffer.iinit [] fd) =
        .ok (some (ok, L.length, buf, Buffer.iinit [] fd')) := by
      have e : ([] : Bytes).length + L.length = L.length := by simp
      rw [e] at h1; exact h1
    right
    rw [ok_bind' _ _ _ h1]
    simp only []
    rcases h4 with ⟨rfl, q2, q3, rfl⟩ | ⟨rfl, q2, q3, rfl⟩ | ⟨rfl, q2, q3, q4⟩
    · rw [if_neg (by simp)]
      have hr : rd ([] ++ (L ++ c! '\n' :: List.replicate (MAX - 1 - L.length) 0)) L.length = .ok (c! '\n') :=
        HostPort.rd_at L _ _ _ rfl
      rw [ok_bind' _ _ _ hr, if_neg (by simp)]
      have hw : wr ([] ++ (L ++ c! '\n' :: List.replicate (MAX - 1 - L.length) 0)) (L.length + 1) 0 =
          .ok (L ++ c! '\n' :: 0 :: List.replicate (MAX - 2 - L.length) 0) := by
        have e : MAX - 1 - L.length = (MAX - 2 - L.length) + 1 := by unfold MAX at *; omega
        rw [e, List.replicate_succ]
        have := wr_append (L ++ [c! '\n']) (List.replicate (MAX - 2 - L.length) 0) 0 0
        simpa using this
      rw [ok_bind' _ _ _ hw]
      obtain ⟨r, hr1, hr2⟩ := dispatch_ok C hC L (List.replicate (MAX - 2 - L.length) 0) h2
      rw [ok_bind' _ _ _ hr1]
      exact ⟨r, L, fd', rfl, h2, h3, .inl ⟨q2, q3, hr2⟩⟩
    · rw [if_neg (by simp)]
      have hr : rd ([] ++ (L ++ [0])) L.length = .ok 0 := HostPort.rd_at L 0 [] _ rfl
      rw [ok_bind' _ _ _ hr, if_pos (by decide)]
      exact ⟨none, L, fd', rfl, h2, h3, .inr (.inl ⟨rfl, q2, q3⟩)⟩
    · rw [if_pos rfl]
      exact ⟨none, L, fd', rfl, h2, h3, .inr (.inr ⟨rfl, q2, q3, q4⟩)⟩

end Proxy
