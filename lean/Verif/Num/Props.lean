import Verif.Num.Lemmas
/-
Property theorems: C01 (numbers), C02 (ports).
-/
namespace Num
open Spec

/-- **C01 (acceptance).** For every text `s`, whatever bytes follow its NUL, and
all `long long` bounds: the parser succeeds with `v` exactly when `s` is a
signed decimal numeral for `v` and `v` is in range. In particular no memory
outside the string is read and no value wraps around. -/
theorem c01_parsenum_accepts (s rest : Bytes) (hs : NoNul s) (min max v : Int)
    (hmin : IsLL min) (hmax : IsLL max) :
    parsenum min max (some (cstr s rest)) = .ok (1, v) ↔
      (Denotes s v ∧ min ≤ v ∧ v ≤ max) := by
  obtain ⟨r, hr, hv⟩ := signedNumber_ok s rest hs
  simp only [parsenum, parsenum_, hr, Out.ok_bind, Out.pure_eq]
  unfold IsLL at *
  constructor
  · intro h
    cases r with
    | none => simp [inRange] at h
    | some w =>
      simp only [inRange] at h
      by_cases h1 : w < min
      · simp [h1] at h
      · by_cases h2 : w > max
        · simp [h1, h2] at h
        · simp [h1, h2] at h
          subst h
          exact ⟨((hv w).mp rfl).1, by omega, by omega⟩
  · rintro ⟨h1, h2, h3⟩
    have := (hv v).mpr ⟨h1, by omega⟩
    subst this
    have e1 : ¬ v < min := by omega
    have e2 : ¬ v > max := by omega
    simp [inRange, e1, e2]

/-- **C01 (rejection).** Every other text makes the parser fail and deliver 0. -/
theorem c01_parsenum_rejects (s rest : Bytes) (hs : NoNul s) (min max : Int)
    (h : ¬ ∃ v, Denotes s v ∧ min ≤ v ∧ v ≤ max) :
    parsenum min max (some (cstr s rest)) = .ok (0, 0) := by
  obtain ⟨r, hr, hv⟩ := signedNumber_ok s rest hs
  simp only [parsenum, parsenum_, hr, Out.ok_bind, Out.pure_eq]
  cases r with
  | none => simp [inRange]
  | some w =>
    have hw := (hv w).mp rfl
    by_cases h1 : w < min
    · simp [inRange, h1]
    · by_cases h2 : w > max
      · simp [inRange, h2]
      · exact absurd ⟨w, hw.1, by omega, by omega⟩ h

/-- The text denotes at most one number, so the delivered value is determined. -/
theorem c01_denotes_unique (s : Bytes) (v w : Int) (h1 : Denotes s v) (h2 : Denotes s w) :
    v = w := by
  rw [denotes_iff] at h1 h2
  have head : ∀ b ds, Numeral (b :: ds) → b ≠ c! '+' ∧ b ≠ c! '-' :=
    fun b ds h => ⟨(numeral_head b ds h).1, (numeral_head b ds h).2.1⟩
  rcases h1 with ⟨h1, rfl⟩ | ⟨d1, rfl, h1, rfl⟩ | ⟨d1, rfl, h1, rfl⟩ <;>
    rcases h2 with ⟨h2, rfl⟩ | ⟨d2, e, h2, rfl⟩ | ⟨d2, e, h2, rfl⟩
  · rfl
  · subst e; exact absurd rfl (head _ _ h1).1
  · subst e; exact absurd rfl (head _ _ h1).2
  · exact absurd rfl (head _ _ h2).1
  · cases e; rfl
  · simp at e
  · exact absurd rfl (head _ _ h2).2
  · simp at e
  · cases e; rfl

/-- **C01 (round trip).** Every in-range number, written in plain decimal, is
parsed back to itself. -/
theorem c01_parsenum_decimal (n : Nat) (rest : Bytes) (min max : Int)
    (hmin : IsLL min) (hmax : IsLL max) (h1 : min ≤ n) (h2 : (n : Int) ≤ max) :
    parsenum min max (some (cstr (decimal n) rest)) = .ok (1, (n : Int)) :=
  (c01_parsenum_accepts _ _ (decimal_noNul n) _ _ _ hmin hmax).mpr
    ⟨by have := Denotes.plain (numeral_decimal n); rwa [value_decimal] at this, h1, h2⟩

/-- **C01 (round trip, negative numbers).** -/
theorem c01_parsenum_neg_decimal (n : Nat) (rest : Bytes) (min max : Int)
    (hmin : IsLL min) (hmax : IsLL max) (h1 : min ≤ -(n : Int)) (h2 : -(n : Int) ≤ max) :
    parsenum min max (some (cstr (c! '-' :: decimal n) rest)) = .ok (1, -(n : Int)) :=
  (c01_parsenum_accepts _ _ (by
    intro b hb
    rcases List.mem_cons.mp hb with rfl | h
    · decide
    · exact decimal_noNul n b h) _ _ _ hmin hmax).mpr
    ⟨by have := Denotes.minus (numeral_decimal n); rwa [value_decimal] at this, h1, h2⟩

/-- **C01 (the silent variant).** The number parser without logging, which the port
parser uses, answers exactly like the logging one: the same return value (1 or 0) and
the same stored value, for every text and range; a NULL text is refused with a stored 0
by both. -/
theorem c01_silent (s rest : Bytes) (hs : NoNul s) (min max : Int) :
    parsenum_ min max (some (cstr s rest)) = parsenum min max (some (cstr s rest)) ∧
    parsenum_ min max none = .ok (0, 0) ∧ parsenum min max none = .ok (0, 0) := by
  obtain ⟨r, hr, hv⟩ := signedNumber_ok s rest hs
  refine ⟨?_, rfl, rfl⟩
  simp only [parsenum, parsenum_, hr, Out.ok_bind, Out.pure_eq]
  cases r with
  | none => simp [inRange]
  | some w => by_cases h1 : w < min <;> by_cases h2 : w > max <;> simp [inRange, h1, h2]

example : parsenum_ 0 9 (some (cstr b!"7" b!"x")) = .ok (1, 7) := by decide
-- The hypotheses are satisfiable: a concrete accepted and a concrete rejected text.
example : parsenum 1 86400 (some (cstr b!"600" b!"xyz")) = .ok (1, 600) := by decide
example : parsenum llmin llmax (some (cstr b!"-9223372036854775808" [])) = .ok (1, llmin) := by
  decide
example : parsenum llmin llmax (some (cstr b!"18446744073709551617" [])) = .ok (0, 0) := by
  decide
example : NoNul b!"600" ∧ IsLL 1 ∧ IsLL 86400 := by
  unfold IsLL llmin llmax; decide
example : Denotes b!"600" 600 :=
  have : Numeral b!"600" := ⟨by decide, by decide, by decide⟩
  Denotes.plain this
example : ¬ ∃ v, Denotes b!"007" v ∧ 0 ≤ v ∧ v ≤ 10 := by
  rintro ⟨v, h, -⟩
  rw [denotes_iff] at h
  rcases h with ⟨h, -⟩ | ⟨d, h, -⟩ | ⟨d, h, -⟩
  · exact absurd (h.canonical rfl) (by decide)
  · cases h
  · cases h

/-- The number encoded by two network-order port bytes. -/
def portNum (hi lo : Byte) : Nat := hi.toNat * 256 + lo.toNat

/-- **C02 (acceptance).** Text is accepted as port `(hi, lo)` exactly when it is
a canonical unsigned decimal numeral whose value is that port; so only values
0..65535 are accepted, no sign and no leading zeros. -/
theorem c02_parseport_accepts (s rest : Bytes) (hs : NoNul s) (hi lo : Byte) :
    parseport (some (cstr s rest)) = .ok (some (hi, lo)) ↔
      (Numeral s ∧ value s = portNum hi lo) := by
  have hll0 : IsLL 0 := by unfold IsLL llmin llmax; omega
  have hll1 : IsLL 65535 := by unfold IsLL llmin llmax; omega
  obtain ⟨r, hr, hv⟩ := signedNumber_ok s rest hs
  simp only [parseport, parseport_, parsenum_, hr, Out.ok_bind, Out.pure_eq]
  have hhi := hi.toNat_lt
  have hlo := lo.toNat_lt
  match s, hs, hr, hv with
  | [], _, _, _ =>
    simp only [cstr, List.nil_append, rd_cons_zero, Out.ok_bind, true_or, if_true]
    simp only [Out.ok.injEq, reduceCtorEq, false_iff]
    rintro ⟨h, -⟩
    exact h.nonempty rfl
  | b :: s, hs, hr, hv =>
    have hb : b ≠ 0 := hs b (by simp)
    simp only [cstr_cons, rd_cons_zero, Out.ok_bind, hb, false_or]
    by_cases hsg : b = c! '+' ∨ b = c! '-'
    · rw [if_pos hsg]
      simp only [Out.ok.injEq, reduceCtorEq, false_iff]
      rintro ⟨h, -⟩
      have := numeral_head b s h
      rcases hsg with h' | h'
      · exact this.1 h'
      · exact this.2.1 h'
    · rw [if_neg hsg]
      have hden : ∀ v, Denotes (b :: s) v ↔ (Numeral (b :: s) ∧ v = value (b :: s)) := by
        intro v
        rw [denotes_iff]
        constructor
        · rintro (h | ⟨ds, h, -⟩ | ⟨ds, h, -⟩)
          · exact h
          · cases h; exact absurd (.inl rfl) hsg
          · cases h; exact absurd (.inr rfl) hsg
        · intro h; exact .inl h
      constructor
      · intro h
        cases r with
        | none => simp [inRange] at h
        | some w =>
          obtain ⟨h4, -⟩ := (hv w).mp rfl
          obtain ⟨h3, rfl⟩ := (hden w).mp h4
          simp only [inRange] at h
          by_cases h1 : (value (b :: s) : Int) < 0
          · omega
          · by_cases h2 : (value (b :: s) : Int) > 65535
            · simp [h1, h2] at h
            · simp [h1, h2, portBytes] at h
              refine ⟨h3, ?_⟩
              obtain ⟨rfl, rfl⟩ := h
              have h4 : value (b :: s) < 65536 := by omega
              unfold portNum
              rw [UInt8.toNat_ofNat', UInt8.toNat_ofNat']
              omega
      · rintro ⟨h1, h2⟩
        unfold portNum at h2
        have := (hv (value (b :: s))).mpr ⟨(hden _).mpr ⟨h1, rfl⟩, by
          unfold IsLL llmin llmax; omega⟩
        subst this
        have e1 : ¬ (value (b :: s) : Int) < 0 := by omega
        have e2 : ¬ (value (b :: s) : Int) > 65535 := by omega
        simp only [inRange, e1, e2, if_false, Nat.succ_ne_zero, portBytes, Out.ok.injEq,
          Option.some.injEq, Prod.mk.injEq, Int.toNat_natCast]
        refine ⟨UInt8.toNat_inj.mp ?_, UInt8.toNat_inj.mp ?_⟩
        · rw [UInt8.toNat_ofNat']; omega
        · rw [UInt8.toNat_ofNat']; omega

/-- **C02 (totality).** On every string the port parser returns normally. -/
theorem c02_parseport_total (s rest : Bytes) (hs : NoNul s) :
    parseport (some (cstr s rest)) = .ok none ∨
      ∃ hi lo, parseport (some (cstr s rest)) = .ok (some (hi, lo)) := by
  obtain ⟨r, hr, -⟩ := signedNumber_ok s rest hs
  simp only [parseport, parseport_, parsenum_, hr, Out.ok_bind, Out.pure_eq]
  have : ∃ b, rd (cstr s rest) 0 = .ok b := by
    cases s <;> simp [cstr, rd]
  obtain ⟨b, hb⟩ := this
  simp only [hb, Out.ok_bind]
  split
  · exact .inl rfl
  · split
    · exact .inl rfl
    · exact .inr ⟨_, _, rfl⟩

/-- **C02 (printing).** For every port and every buffer of at least 6 bytes, the
formatter returns the start of the buffer, which then holds the decimal text of
the port followed by NULs up to 6 bytes; nothing after the 6 bytes changes. -/
theorem c02_porttostr_prints (buf : Bytes) (hi lo : Byte) (hb : 6 ≤ buf.length) :
    ∃ pad, 1 ≤ pad ∧ (decimal (portNum hi lo)).length + pad = 6 ∧
      porttostr buf hi lo =
        .ok (decimal (portNum hi lo) ++ List.replicate pad 0 ++ buf.drop 6, 0) := by
  have h1 := hi.toNat_lt
  have h2 := lo.toNat_lt
  have hlen := decimal_length_port (portNum hi lo) (by unfold portNum; omega)
  refine ⟨6 - (decimal (portNum hi lo)).length, by omega, by omega, ?_⟩
  rw [porttostr_ok buf hi lo hb, List.append_assoc]
  rfl

/-- **C02 (round trip).** For every port, printing it into any 6-byte buffer and
parsing the text found at the returned position yields the port again. -/
theorem c02_port_roundtrip (buf : Bytes) (hi lo : Byte) (hb : 6 ≤ buf.length) :
    ∃ buf' pos, porttostr buf hi lo = .ok (buf', pos) ∧
      parseport (some (buf'.drop pos)) = .ok (some (hi, lo)) := by
  obtain ⟨pad, hp, -, h⟩ := c02_porttostr_prints buf hi lo hb
  refine ⟨_, 0, h, ?_⟩
  obtain ⟨k, rfl⟩ : ∃ k, pad = k + 1 := ⟨pad - 1, by omega⟩
  have e : (decimal (portNum hi lo) ++ List.replicate (k + 1) 0 ++ buf.drop 6).drop 0 =
      cstr (decimal (portNum hi lo)) (List.replicate k 0 ++ buf.drop 6) := by
    simp [cstr, List.replicate_succ]
  rw [e]
  exact (c02_parseport_accepts _ _ (decimal_noNul _) hi lo).mpr
    ⟨numeral_decimal _, value_decimal _⟩

example : parseport (some (cstr b!"443" [])) = .ok (some (1, 187)) := by decide
example : parseport (some (cstr b!"65536" [])) = .ok none := by decide
example : parseport (some (cstr b!"+1" [])) = .ok none := by decide
example : Numeral b!"443" ∧ value b!"443" = portNum 1 187 :=
  ⟨⟨by decide, by decide, by decide⟩, by decide⟩

end Num
