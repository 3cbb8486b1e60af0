import Verif.Log.Lemmas
import Verif.Resolve.Lemmas
/-
Proofs about the formatters.
-/
namespace Log
open Num.Spec (decimal)
open Proxy (IpCodec)

attribute [local instance] decForallByte

theorem hexchar_eq (b : Byte) : [hexchar (b.toNat / 16 % 16), hexchar (b.toNat % 16)] = hex2 b := by
  revert b; decide +kernel

theorem hex2_ne_zero (b : Byte) : NoNul (hex2 b) := by revert b; decide +kernel

theorem NoNul.app {a b : Bytes} (ha : NoNul a) (hb : NoNul b) : NoNul (a ++ b) := by
  intro x hx
  rcases List.mem_append.1 hx with h | h
  · exact ha x h
  · exact hb x h

theorem hexes_noNul (y : Bytes) : NoNul (y.flatMap hex2) := by
  intro x hx
  obtain ⟨b, _, h⟩ := List.mem_flatMap.1 hx
  exact hex2_ne_zero b x h

/-- Write one byte after `pre`. -/
theorem wr_at (pre R : Bytes) (x : Bytes) (i : Nat) (b : Byte) (hx : x = pre ++ R) (hi : i = pre.length)
    (hl : i < x.length) : wr x i b = .ok (pre ++ b :: R.drop 1) := by
  subst hx hi
  cases R with
  | nil => simp at hl
  | cons z R => rw [wr_append]; rfl

/-- The four final writes of a truncated text. -/
theorem dots_ok (pre R : Bytes) (i : Nat) (hi : i = pre.length) (hl : 4 ≤ R.length) :
    (do
      let x ← wr (pre ++ R) i (c! '.')
      let x ← wr x (i + 1) (c! '.')
      let x ← wr x (i + 2) (c! '.')
      wr x (i + 3) 0) = .ok (cstr (pre ++ b!"...") (R.drop 4)) := by
  subst hi
  rw [wr_at pre R _ _ _ rfl rfl (by simp; omega)]
  simp only [Out.ok_bind]
  rw [wr_at (pre ++ [46]) (R.drop 1) _ _ _ (by simp) (by simp) (by simp; omega)]
  simp only [Out.ok_bind]
  rw [wr_at (pre ++ [46, 46]) (R.drop 2) _ _ _ (by simp) (by simp) (by simp; omega)]
  simp only [Out.ok_bind]
  rw [wr_at (pre ++ [46, 46, 46]) (R.drop 3) _ _ _ (by simp) (by simp) (by simp; omega)]
  simp [cstr]

theorem strLoop_ok (s rest : Bytes) (hs : NoNul s) : ∀ (pre R : Bytes), pre.length ≤ 64 →
    (pre ++ R).length = 68 →
    ∃ tl, strLoop (pre ++ R) pre.length (cstr s rest) = .ok (cstr (pre ++
      (if pre.length + s.length ≤ 64 then s else s.take (64 - pre.length) ++ b!"...")) tl) := by
  induction s with
  | nil =>
    intro pre R hp hl
    refine ⟨R.drop 1, ?_⟩
    rw [show cstr [] rest = 0 :: rest from rfl, strLoop, if_pos rfl,
      wr_at pre R _ _ _ rfl rfl (by omega), if_pos (by simpa using hp)]
    simp [cstr]
  | cons b s ih =>
    intro pre R hp hl
    have hb : b ≠ 0 := hs b (by simp)
    rw [show cstr (b :: s) rest = b :: cstr s rest from rfl, strLoop, if_neg hb]
    simp only [List.length_append] at hl
    by_cases h64 : pre.length = STATICBUFSIZE - 4
    · rw [if_pos h64]
      have h64' : pre.length = 64 := h64
      have := dots_ok pre R 64 (by omega) (by omega)
      simp only [STATICBUFSIZE] at this ⊢
      rw [this]
      refine ⟨R.drop 4, ?_⟩
      rw [if_neg (by simp; omega), show 64 - pre.length = 0 by omega]
      rfl
    · rw [if_neg h64]
      have h64' : pre.length ≠ 64 := h64
      rw [wr_at pre R _ _ _ rfl rfl (by simp; omega)]
      simp only [Out.ok_bind]
      obtain ⟨tl, e⟩ := ih (fun x hx => hs x (by simp [hx])) (pre ++ [b]) (R.drop 1) (by simp; omega)
        (by simp; omega)
      rw [show pre ++ b :: R.drop 1 = pre ++ [b] ++ R.drop 1 by simp,
        show pre.length + 1 = (pre ++ [b]).length by simp, e]
      refine ⟨tl, ?_⟩
      congr 2
      simp only [List.length_append, List.length_cons, List.length_nil, Nat.zero_add, List.append_assoc]
      by_cases hh : pre.length + 1 + s.length ≤ 64
      · rw [if_pos hh, if_pos (by omega)]; rfl
      · rw [if_neg hh, if_neg (by omega)]
        rw [show 64 - pre.length = (64 - (pre.length + 1)) + 1 by omega]
        simp

theorem hexLoop_ok (y : Bytes) : ∀ (pre R : Bytes) (i n : Nat), pre.length = 2 * i → i ≤ 32 →
    (pre ++ R).length = 68 → n ≤ y.length →
    ∃ x tl, hexLoop (pre ++ R) 68 i y n = .ok x ∧ x.length = 68 ∧ x = cstr (pre ++
      (if i + n ≤ 32 then (y.take n).flatMap hex2 else (y.take (32 - i)).flatMap hex2 ++ b!"...")) tl := by
  induction y with
  | nil =>
    intro pre R i n hp hi hl hn
    have : n = 0 := by simpa using hn
    subst this
    simp only [List.length_append] at hl
    rw [hexLoop, wr_at pre R _ _ _ rfl hp.symm (by simp; omega), if_pos (by omega)]
    exact ⟨_, R.drop 1, rfl, by simp; omega, by simp [cstr]⟩
  | cons b y ih =>
    intro pre R i n hp hi hl hn
    simp only [List.length_append] at hl
    cases n with
    | zero =>
      rw [hexLoop, wr_at pre R _ _ _ rfl hp.symm (by simp; omega), if_pos (by omega)]
      exact ⟨_, R.drop 1, rfl, by simp; omega, by simp [cstr]⟩
    | succ n =>
      rw [hexLoop]
      by_cases h32 : i = (68 - 4) / 2
      · rw [if_pos h32]
        have := dots_ok pre R (2 * i) (by omega) (by omega)
        rw [this]
        refine ⟨_, R.drop 4, rfl, by simp [cstr]; omega, ?_⟩
        rw [if_neg (by omega), show 32 - i = 0 by omega]
        rfl
      · rw [if_neg h32, wr_at pre R _ _ _ rfl hp.symm (by simp; omega)]
        simp only [Out.ok_bind]
        rw [wr_at (pre ++ [hexchar (b.toNat / 16 % 16)]) (R.drop 1) _ _ _ (by simp) (by simp [hp]) (by simp; omega)]
        simp only [Out.ok_bind, List.drop_drop]
        obtain ⟨x, tl, e, el, et⟩ := ih (pre ++ hex2 b) (R.drop 2) (i + 1) n
          (by rw [List.length_append, hp, show (hex2 b).length = 2 from rfl]; omega) (by omega)
          (by rw [List.length_append, List.length_append, hp, show (hex2 b).length = 2 from rfl]; simp; omega)
          (by simpa using hn)
        rw [show pre ++ [hexchar (b.toNat / 16 % 16)] ++ hexchar (b.toNat % 16) :: R.drop (1 + 1) =
          pre ++ hex2 b ++ R.drop 2 by rw [← hexchar_eq]; simp, e]
        refine ⟨x, tl, rfl, el, ?_⟩
        rw [et]
        congr 1
        rw [List.append_assoc]
        by_cases hh : i + 1 + n ≤ 32
        · rw [if_pos hh, if_pos (by omega)]; simp
        · rw [if_neg hh, if_neg (by omega), show 32 - i = (32 - (i + 1)) + 1 by omega]
          simp

/-! ### The rotating buffers -/

theorem next_ok (z : Static) (h : z.WF) : ∃ b, z.next = .ok ({ z with counter := (z.counter + 1) % 9 }, b) ∧
    b.length = 68 ∧ z.bufs[(z.counter + 1) % 9]? = some b := by
  obtain ⟨h1, h2, h3⟩ := h
  have hk : (z.counter + 1) % 9 < z.bufs.length := by rw [h1]; omega
  refine ⟨z.bufs[(z.counter + 1) % 9], ?_, h2 _ (List.getElem_mem hk), List.getElem?_eq_getElem hk⟩
  unfold Static.next
  simp only [List.getElem?_eq_getElem hk]

/-- What a formatter call does when it leaves `t` at offset `off` of the next buffer (specification
of the formatters, log.c:570-768). -/
def Formats (z : Static) (t : Bytes) (r : Out (Static × Nat × Nat)) : Prop :=
  ∃ z' off, r = .ok (z', (z.counter + 1) % 9, off) ∧ z'.WF ∧ z'.counter = (z.counter + 1) % 9 ∧
    z'.text ((z.counter + 1) % 9, off) = .ok t ∧
    ∀ j, j ≠ (z.counter + 1) % 9 → z'.bufs[j]? = z.bufs[j]?

theorem formats_put (z : Static) (h : z.WF) (x t tl : Bytes) (off : Nat) (hx : x.length = 68)
    (hn : NoNul t) (ht : x.drop off = cstr t tl) :
    Formats z t (.ok (({ z with counter := (z.counter + 1) % 9 } : Static).put x, (z.counter + 1) % 9, off)) := by
  obtain ⟨h1, h2, h3⟩ := h
  have hk : (z.counter + 1) % 9 < z.bufs.length := by rw [h1]; omega
  refine ⟨_, off, rfl, ⟨?_, ?_, ?_⟩, rfl, ?_, ?_⟩
  · simp [Static.put, h1]
  · intro b hb
    simp only [Static.put] at hb
    rcases List.mem_or_eq_of_mem_set hb with hb | hb
    · exact h2 b hb
    · rw [hb, hx]
  · simp only [Static.put]; omega
  · unfold Static.text
    simp only [Static.put]
    rw [List.getElem?_set_self hk]
    simp only []
    rw [ht]
    exact cstrOf_cstr _ _ hn
  · intro j hj
    simp only [Static.put]
    rw [List.getElem?_set_ne (fun e => hj e.symm)]

theorem null_ok (x : Bytes) (hx : x.length = 68) : ∃ tl, copyN x 0 NULLSTR 7 = .ok (cstr b!"(null)" tl) ∧
    (cstr b!"(null)" tl).length = 68 := by
  rw [copyN_full _ _ _ _ (by decide) (by omega)]
  refine ⟨x.drop 7, ?_, by simp [cstr, hx]⟩
  rfl

theorem ntopAt_ok (x text : Bytes) (off : Nat) (h : off + text.length + 1 ≤ x.length) :
    ntopAt x off text = .ok (x.take off ++ cstr text (x.drop (off + text.length + 1))) := by
  unfold ntopAt
  rw [copyN_full _ _ _ _ (by simp) (by omega)]
  congr 2
  rw [List.take_of_length_le (by simp)]
  simp [cstr]; congr 1

theorem numField_pad0 (n : Nat) (w : Nat) (hw : w = 0) : numField (n : Int) w = decimal n := by
  subst hw
  unfold numField
  rw [if_neg (by omega)]
  simp

theorem numField_noNul (n : Int) (w : Nat) : NoNul (numField n w) := printable_noNul _ (numField_printable _ _)

theorem cut_noNul (s : Bytes) (h : NoNul s) : NoNul (cut s) := by
  unfold cut
  split
  · exact h
  · exact NoNul.app (fun b hb => h b (List.mem_of_mem_take hb)) (by decide)

theorem dump_noNul (y : Bytes) : NoNul (dump y) := by
  unfold dump
  split
  · exact hexes_noNul _
  · exact NoNul.app (hexes_noNul _) (by decide)

theorem takeWhile_cstr (s rest : Bytes) (hs : NoNul s) : (cstr s rest).takeWhile (· ≠ 0) = s := by
  induction s with
  | nil => simp [cstr]
  | cons b s ih =>
    have hb : b ≠ 0 := hs b (by simp)
    have := ih (fun x hx => hs x (by simp [hx]))
    unfold cstr at this ⊢
    rw [List.cons_append, List.takeWhile_cons, if_pos (by simpa using hb), this]

theorem len_of_wr {b b' : Bytes} {i : Nat} {x : Byte} (h : wr b i x = .ok b') : b'.length = b.length := by
  unfold wr at h
  split at h
  · cases h; simp
  · cases h

theorem strLoop_len (m x x' : Bytes) (i : Nat) (h : strLoop x i m = .ok x') : x'.length = x.length := by
  induction m generalizing x i with
  | nil => simp [strLoop] at h
  | cons b m ih =>
    rw [strLoop] at h
    split at h
    · exact len_of_wr h
    · split at h
      · cases h1 : wr x (STATICBUFSIZE - 4) (c! '.') with
        | ub => rw [h1] at h; simp at h
        | ok x1 =>
          rw [h1] at h; simp only [Out.ok_bind] at h
          cases h2 : wr x1 (STATICBUFSIZE - 3) (c! '.') with
          | ub => rw [h2] at h; simp at h
          | ok x2 =>
            rw [h2] at h; simp only [Out.ok_bind] at h
            cases h3 : wr x2 (STATICBUFSIZE - 2) (c! '.') with
            | ub => rw [h3] at h; simp at h
            | ok x3 =>
              rw [h3] at h; simp only [Out.ok_bind] at h
              rw [len_of_wr h, len_of_wr h3, len_of_wr h2, len_of_wr h1]
      · cases h1 : wr x i b with
        | ub => rw [h1] at h; simp at h
        | ok x1 =>
          rw [h1] at h; simp only [Out.ok_bind] at h
          rw [ih _ _ h, len_of_wr h1]

theorem log_str_ok (C : IpCodec) (z : Static) (h : z.WF) (s : Option Bytes) (ho : (Call.str s).Ok) :
    Formats z ((Call.str s).wanted C) (log_str z s) := by
  obtain ⟨x, e1, e2, e3⟩ := next_ok z h
  unfold log_str
  rw [e1]
  simp only [Out.ok_bind]
  cases s with
  | none =>
    obtain ⟨tl, f1, f2⟩ := null_ok x e2
    simp only []
    rw [f1]
    exact formats_put z h _ b!"(null)" tl 0 f2 (by decide) rfl
  | some m =>
    obtain ⟨s, rest, rfl, hn⟩ := ho
    obtain ⟨tl, f1⟩ := strLoop_ok s rest hn [] x (by simp) (by simpa using e2)
    simp only [List.nil_append, List.length_nil, Nat.zero_add, Nat.sub_zero] at f1
    simp only []
    rw [f1]
    have hw : (Call.str (some (cstr s rest))).wanted C = cut s := by
      simp only [Call.wanted]
      rw [takeWhile_cstr s rest hn]
    rw [hw]
    exact formats_put z h _ _ tl 0 (by rw [strLoop_len _ _ _ _ f1, e2]) (cut_noNul s hn) rfl

theorem log_ip_ok (C : IpCodec) (hC : C.Lawful) (z : Static) (h : z.WF) (a : Option Bytes) (ho : (Call.ip a).Ok) :
    Formats z ((Call.ip a).wanted C) (log_ip C z a) := by
  obtain ⟨x, e1, e2, e3⟩ := next_ok z h
  unfold log_ip
  rw [e1]
  simp only [Out.ok_bind]
  cases a with
  | none =>
    obtain ⟨tl, f1, f2⟩ := null_ok x e2
    simp only []
    rw [f1]
    exact formats_put z h _ b!"(null)" tl 0 f2 (by decide) rfl
  | some a =>
    have ha : a.length = 16 := ho
    have hl : (Proxy.iptostr C a).length ≤ 45 ∧ NoNul (Proxy.iptostr C a) := by
      unfold Proxy.iptostr
      have hi : ∀ b, Proxy.IpChar b → b ≠ 0 := by decide +kernel
      split
      · have h4 : (a.drop 12).length = 4 := by simp [ha]
        exact ⟨hC.len4 _ h4, fun b hb => hi b ((hC.in4 _ _ (hC.rt4 _ h4)).2 b hb)⟩
      · exact ⟨hC.len6 _ ha, fun b hb => hi b ((hC.in6 _ _ (hC.rt6 _ ha)).2 b hb)⟩
    simp only []
    rw [ntopAt_ok _ _ _ (by omega)]
    simp only [List.take_zero, List.nil_append, Nat.zero_add, Out.ok_bind, Out.pure_eq]
    exact formats_put z h _ (Proxy.iptostr C a) _ 0 (by simp [cstr, e2]; omega) hl.2 rfl

theorem numtostr68 (x : Bytes) (hx : x.length = 68) (n cnt : Int) (hn : IsLL n) (hc : IsLL cnt) :
    ∃ x' tl, numtostr x STATICBUFSIZE n cnt = .ok (x', 0) ∧ x'.length = 68 ∧
      x' = cstr (numField n (min cnt.toNat 67)) tl := by
  obtain ⟨b, e, h1, tl, h2⟩ := numtostr_ok x n cnt hn hc (by have := decimal_len n hn; omega)
  rw [hx] at e h1 h2
  exact ⟨b, tl, e, h1, h2⟩

theorem port_ll (hi lo : Byte) : IsLL ((hi.toNat * 256 + lo.toNat : Nat) : Int) := by
  have h1 := hi.toNat_lt
  have h2 := lo.toNat_lt
  unfold IsLL llmin llmax
  omega

theorem zero_ll : IsLL 0 := by unfold IsLL llmin llmax; omega

theorem log_port_ok (C : IpCodec) (z : Static) (h : z.WF) (p : Option (Byte × Byte)) :
    Formats z ((Call.port p).wanted C) (log_port z p) := by
  obtain ⟨x, e1, e2, e3⟩ := next_ok z h
  unfold log_port
  rw [e1]
  simp only [Out.ok_bind]
  cases p with
  | none =>
    obtain ⟨tl, f1, f2⟩ := null_ok x e2
    simp only []
    rw [f1]
    exact formats_put z h _ b!"(null)" tl 0 f2 (by decide) rfl
  | some p =>
    obtain ⟨hi, lo⟩ := p
    obtain ⟨x', tl, f1, f2, f3⟩ := numtostr68 x e2 _ 0 (port_ll hi lo) zero_ll
    simp only []
    rw [f1]
    simp only [Out.ok_bind, Out.pure_eq]
    rw [numField_pad0 _ _ (by simp)] at f3
    exact formats_put z h x' (decimal (hi.toNat * 256 + lo.toNat)) tl 0 f2 (Num.decimal_noNul _) (by simpa using f3)

theorem log_num0_ok (C : IpCodec) (z : Static) (h : z.WF) (n cnt : Int) (ho : (Call.num n cnt).Ok) :
    Formats z ((Call.num n cnt).wanted C) (log_num0 z n cnt) := by
  obtain ⟨x, e1, e2, e3⟩ := next_ok z h
  unfold log_num0
  rw [e1]
  simp only [Out.ok_bind]
  obtain ⟨x', tl, f1, f2, f3⟩ := numtostr68 x e2 n cnt ho.1 ho.2
  rw [f1]
  simp only [Out.ok_bind, Out.pure_eq]
  exact formats_put z h x' (numField n (min cnt.toNat 67)) tl 0 f2 (numField_noNul _ _) (by simpa using f3)

theorem log_hex_ok (C : IpCodec) (z : Static) (h : z.WF) (y : Option Bytes) (n : Int) (ho : (Call.hex y n).Ok) :
    Formats z ((Call.hex y n).wanted C) (log_hex z y n) := by
  obtain ⟨x, e1, e2, e3⟩ := next_ok z h
  unfold log_hex
  rw [e1]
  simp only [Out.ok_bind]
  cases y with
  | none =>
    obtain ⟨tl, f1, f2⟩ := null_ok x e2
    simp only []
    rw [f1]
    exact formats_put z h _ b!"(null)" tl 0 f2 (by decide) rfl
  | some y =>
    have hy : n ≤ y.length := ho
    simp only []
    by_cases hn : n ≤ 0
    · rw [if_pos hn, wr_at [] x x 0 _ rfl rfl (by omega)]
      simp only [Out.ok_bind, Out.pure_eq, List.nil_append]
      have : (Call.hex (some y) n).wanted C = [] := by
        simp only [Call.wanted]; rw [show n.toNat = 0 by omega]; rfl
      rw [this]
      exact formats_put z h _ [] (x.drop 1) 0 (by simp [e2]) (by decide) rfl
    · rw [if_neg hn]
      unfold tohex
      rw [if_neg (by decide)]
      obtain ⟨x', tl, f1, f2, f3⟩ := hexLoop_ok y [] x 0 n.toNat rfl (by omega) (by simpa using e2) (by omega)
      rw [List.nil_append] at f1
      rw [show STATICBUFSIZE = 68 from rfl, f1]
      simp only [Out.ok_bind, Out.pure_eq]
      refine formats_put z h x' _ tl 0 f2 (dump_noNul _) ?_
      rw [List.drop_zero, f3]
      congr 1
      simp only [Call.wanted]
      unfold dump
      rw [List.length_take, show min n.toNat y.length = n.toNat by omega, List.take_take]
      simp only [List.nil_append, Nat.zero_add, Nat.sub_zero]
      by_cases hh : n.toNat ≤ 32
      · rw [if_pos hh, if_pos hh]
      · rw [if_neg hh, if_neg hh, show min 32 n.toNat = 32 by omega]

/-- numtostr on the rest of a buffer. -/
theorem numtostrAt_ok (pre R : Bytes) (hl : (pre ++ R).length = 68) (n : Int) (hn : IsLL n)
    (hr : (decimal n.natAbs).length + 2 ≤ R.length) :
    ∃ tl, numtostrAt (pre ++ R) pre.length n 0 = .ok (pre ++ cstr (numField n 0) tl, pre.length) ∧
      (pre ++ cstr (numField n 0) tl).length = 68 := by
  obtain ⟨b, e, h1, tl, h2⟩ := numtostr_ok R n 0 hn zero_ll hr
  simp only [List.length_append] at hl
  refine ⟨tl, ?_, ?_⟩
  · unfold numtostrAt
    rw [List.drop_left, List.take_left, show ((STATICBUFSIZE : Nat) : Int) - (pre.length : Int) = (R.length : Int) by
      simp only [STATICBUFSIZE]; omega, e]
    simp only [Out.ok_bind, Out.pure_eq, Nat.add_zero]
    rw [h2]; simp
  · rw [List.length_append, ← show b = cstr (numField n 0) tl by rw [h2]; simp]
    omega

theorem log_ipport_ok (C : IpCodec) (hC : C.Lawful) (z : Static) (h : z.WF) (a : Option Bytes)
    (p : Option (Byte × Byte)) (ho : (Call.ipport a p).Ok) :
    Formats z ((Call.ipport a p).wanted C) (log_ipport C z a p) := by
  obtain ⟨x, e1, e2, e3⟩ := next_ok z h
  unfold log_ipport
  rw [e1]
  simp only [Out.ok_bind]
  have hnull : ∀ r : Out Bytes, r = copyN x 0 NULLSTR 7 → Formats z b!"(null)" (do
      let x ← r
      return (({ z with counter := (z.counter + 1) % 9 } : Static).put x, (z.counter + 1) % 9, 0)) := by
    intro r hr
    obtain ⟨tl, f1, f2⟩ := null_ok x e2
    rw [hr, f1]
    exact formats_put z h _ b!"(null)" tl 0 f2 (by decide) rfl
  cases a with
  | none => exact hnull _ rfl
  | some a =>
    cases p with
    | none => exact hnull _ rfl
    | some p =>
      obtain ⟨hi, lo⟩ := p
      have ha : a.length = 16 := ho
      have hic : ∀ b, Proxy.IpChar b → b ≠ 0 := by decide +kernel
      simp only []
      -- the address part
      have key : ∃ t R, addrPart C x a = .ok (cstr t R) ∧ (cstr t R).length = 68 ∧ NoNul t ∧
          t.length ≤ 47 ∧
          t = (if a.take 12 = [0,0,0,0,0,0,0,0,0,0,255,255] then C.ntop4 (a.drop 12) else b!"[" ++ C.ntop6 a ++ b!"]") := by
        unfold addrPart
        by_cases h4 : a.take 12 = [0,0,0,0,0,0,0,0,0,0,255,255]
        · rw [if_neg (by simpa [Proxy.v4prefix] using h4), if_pos h4]
          have hl4 : (a.drop 12).length = 4 := by simp [ha]
          have hle := hC.len4 _ hl4
          rw [ntopAt_ok _ _ _ (by omega)]
          exact ⟨_, _, rfl, by simp [cstr, e2]; omega, fun b hb => hic b ((hC.in4 _ _ (hC.rt4 _ hl4)).2 b hb),
            by omega, rfl⟩
        · rw [if_pos (by simpa [Proxy.v4prefix] using h4), if_neg h4]
          have hle := hC.len6 _ ha
          have hn6 : NoNul (C.ntop6 a) := fun b hb => hic b ((hC.in6 _ _ (hC.rt6 _ ha)).2 b hb)
          rw [wr_at [] x x 0 _ rfl rfl (by omega)]
          simp only [Out.ok_bind, List.nil_append]
          rw [ntopAt_ok _ _ _ (by simp; omega)]
          simp only [Out.ok_bind]
          generalize hT : C.ntop6 a = T at hle hn6
          rw [show List.take 1 (c! '[' :: List.drop 1 x) = [c! '['] by simp]
          rw [show ∀ r, [c! '['] ++ cstr T r = cstr (c! '[' :: T) r from fun r => rfl]
          rw [cstrOf_cstr _ _ (by
            intro b hb
            rcases List.mem_cons.1 hb with hb | hb
            · rw [hb]; decide
            · exact hn6 b hb)]
          simp only [Out.ok_bind]
          generalize hR : List.drop (1 + T.length + 1) (c! '[' :: List.drop 1 x) = R
          have hRl : R.length = 66 - T.length := by rw [← hR]; simp [e2]; omega
          rw [wr_at (c! '[' :: T) (0 :: R) (cstr (c! '[' :: T) R) _ _ rfl rfl (by simp [cstr]), List.drop_one, List.tail_cons]
          simp only [Out.ok_bind]
          rw [wr_at (c! '[' :: T ++ [c! ']']) R _ _ _ (by simp) (by simp) (by simp; omega)]
          refine ⟨c! '[' :: T ++ [c! ']'], R.drop 1, rfl, by simp [cstr]; omega, ?_, by simp; omega, rfl⟩
          exact NoNul.app (NoNul.app (a := [c! '[']) (by decide) hn6) (by decide)
      obtain ⟨t, R, k1, k2, k3, k4, k5⟩ := key
      rw [k1]
      simp only [Out.ok_bind]
      rw [cstrOf_cstr _ _ k3]
      simp only [Out.ok_bind]
      have hRl : R.length = 67 - t.length := by simp [cstr] at k2; omega
      rw [wr_at t (0 :: R) (cstr t R) _ _ rfl rfl (by simp [cstr]), List.drop_one, List.tail_cons]
      simp only [Out.ok_bind]
      have hr21 : (decimal ((hi.toNat * 256 + lo.toNat : Nat) : Int).natAbs).length + 2 ≤ R.length := by
        have h1 := hi.toNat_lt
        have h2 := lo.toNat_lt
        have := Num.decimal_length_port (hi.toNat * 256 + lo.toNat) (by omega)
        rw [Int.natAbs_natCast]
        omega
      have hr68 : (t ++ [c! ':'] ++ R).length = 68 := by simp; omega
      obtain ⟨tl, f1, f2⟩ := numtostrAt_ok (t ++ [c! ':']) R hr68 _ (port_ll hi lo) hr21
      rw [show t ++ c! ':' :: R = t ++ [c! ':'] ++ R by simp, show t.length + 1 = (t ++ [c! ':']).length by simp, f1]
      simp only [Out.ok_bind, Out.pure_eq]
      rw [numField_pad0 _ _ rfl] at f2 ⊢
      refine formats_put z h _ _ tl 0 f2 ?_ ?_
      · simp only [Call.wanted]
        rw [← k5]
        exact NoNul.app (NoNul.app k3 (by decide)) (Num.decimal_noNul _)
      · simp only [Call.wanted]
        rw [← k5]
        simp [cstr]

theorem run_ok (C : IpCodec) (hC : C.Lawful) (z : Static) (h : z.WF) (k : Call) (ho : k.Ok) :
    Formats z (k.wanted C) (k.run C z) := by
  cases k with
  | str s => exact log_str_ok C z h s ho
  | ip a => exact log_ip_ok C hC z h a ho
  | port p => exact log_port_ok C z h p
  | ipport a p => exact log_ipport_ok C hC z h a p ho
  | num n c => exact log_num0_ok C z h n c ho
  | hex y n => exact log_hex_ok C z h y n ho

/-! ### Identifier -/

/-- Identifiers of up to 67 characters are kept, longer ones cut after 64 (specification of
log_set_id, log.c:788-817). -/
def idText (s : Bytes) : Bytes := if s.length ≤ 67 then s else s.take 64 ++ b!"..."

theorem idLoop_ok (s rest : Bytes) (hs : NoNul s) : ∀ (pre R : Bytes), pre.length ≤ 67 →
    (pre ++ R).length = 68 →
    ∃ x tl, idLoop (pre ++ R) pre.length (cstr s rest) = .ok x ∧ x.length = 68 ∧ x = cstr (idText (pre ++ s)) tl := by
  induction s with
  | nil =>
    intro pre R hp hl
    simp only [List.length_append] at hl
    rw [show cstr [] rest = 0 :: rest from rfl, idLoop, if_neg (by simp),
      wr_at pre R _ _ _ rfl rfl (by simp; omega)]
    simp only [Out.ok_bind, ne_eq, not_true, if_false, Out.pure_eq]
    refine ⟨_, R.drop 1, rfl, by simp; omega, ?_⟩
    unfold idText
    rw [if_pos (by simpa using hp)]
    simp [cstr]
  | cons b s ih =>
    intro pre R hp hl
    simp only [List.length_append] at hl
    have hb : b ≠ 0 := hs b (by simp)
    rw [show cstr (b :: s) rest = b :: cstr s rest from rfl, idLoop]
    by_cases h67 : pre.length < 67
    · rw [if_pos ⟨hb, h67⟩, wr_at pre R _ _ _ rfl rfl (by simp; omega)]
      simp only [Out.ok_bind]
      obtain ⟨x, tl, e1, e2, e3⟩ := ih (fun x hx => hs x (by simp [hx])) (pre ++ [b]) (R.drop 1) (by simp; omega)
        (by simp; omega)
      rw [show pre ++ b :: R.drop 1 = pre ++ [b] ++ R.drop 1 by simp,
        show pre.length + 1 = (pre ++ [b]).length by simp, e1]
      exact ⟨x, tl, rfl, e2, by rw [e3]; simp⟩
    · rw [if_neg (by intro hh; exact h67 hh.2), wr_at pre R _ _ _ rfl rfl (by simp; omega)]
      simp only [Out.ok_bind]
      rw [if_pos hb]
      have hd := dots_ok (pre.take 64) (pre.drop 64 ++ 0 :: R.drop 1) 64 (by simp; omega) (by simp; omega)
      rw [← List.append_assoc, List.take_append_drop] at hd
      simp only [STATICBUFSIZE] at hd ⊢
      rw [hd]
      refine ⟨_, List.drop 4 (pre.drop 64 ++ 0 :: R.drop 1), rfl, by simp [cstr]; omega, ?_⟩
      unfold idText
      rw [if_neg (by simp; omega), List.take_append_of_le_length (by omega)]

theorem randId_ok (rnd : Nat → Bytes) (k : Nat) : ∀ (pre R : Bytes), k < R.length →
    ∃ cs, randId rnd (pre ++ R) pre.length k = .ok (cstr (pre ++ cs) (R.drop (k + 1))) ∧ cs.length = k ∧
      ∀ j, j < k → cs[j]? = idChars[Resolve.value (rnd (pre.length + j)) % 62]? := by
  induction k with
  | zero =>
    intro pre R h
    refine ⟨[], ?_, rfl, by intro j hj; omega⟩
    rw [randId, wr_at pre R _ _ _ rfl rfl (by simp; omega)]
    simp [cstr]
  | succ k ih =>
    intro pre R h
    have hr := Resolve.randommod_ok 62 (by omega) (rnd pre.length)
    have hlt : Resolve.value (rnd pre.length) % 62 < idChars.length := Nat.mod_lt _ (by decide)
    rw [if_neg (by omega)] at hr
    rw [randId, show (62 : Int) = ((62 : Nat) : Int) from rfl, hr]
    simp only [Out.ok_bind]
    rw [rd, List.getElem?_eq_getElem hlt]
    simp only [Out.ok_bind]
    rw [wr_at pre R _ _ _ rfl rfl (by simp; omega)]
    simp only [Out.ok_bind]
    obtain ⟨cs, e1, e2, e3⟩ := ih (pre ++ [idChars[Resolve.value (rnd pre.length) % 62]]) (R.drop 1) (by simp; omega)
    rw [List.append_assoc, List.singleton_append, show ∀ x : Byte, (pre ++ [x]).length = pre.length + 1 by simp] at e1
    rw [e1]
    refine ⟨idChars[Resolve.value (rnd pre.length) % 62] :: cs, ?_, by simp [e2], ?_⟩
    · congr 1
      simp [cstr, Nat.add_comm]
    · intro j hj
      cases j with
      | zero => simp [List.getElem?_eq_getElem hlt]
      | succ j =>
        have := e3 j (by omega)
        simp only [List.length_append, List.length_singleton] at this
        rw [List.getElem?_cons_succ, this, Nat.add_assoc, Nat.add_comm 1 j]

end Log
