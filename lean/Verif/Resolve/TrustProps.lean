import Verif.Resolve.Trust
import Verif.Resolve.Props
/-
C97: what a resolver process taken over by an attacker can make of the programs that ask it.
-/
namespace Resolve

/-- What the resolver process sent as addresses: everything after the first byte of its datagram. -/
def sent : Option Bytes → Bytes
  | none => []
  | some m => m.drop 1

/-- The datagram is one byte, and that byte claims `n` bytes of addresses. -/
def Lone (reply : Option Bytes) (n : Nat) : Prop := ∃ b : Byte, reply = some [b] ∧ b ≠ 255 ∧ b.toNat = n

/-- The `i`-th address of what was sent, as it lies in a buffer of `size` zero bytes. -/
def piece (size : Nat) (m : Bytes) (i : Nat) : Bytes :=
  (((m ++ List.replicate size 0).take size).drop (16 * i)).take 16

/-- Every address used is the `i`-th one of the buffer for some `i < n`. -/
def Only (size n : Nat) (m : Bytes) (us : List Use) : Prop :=
  ∀ u ∈ us, ∃ i, i < n ∧ (u = .log (piece size m i) ∨ u = .connect i (piece size m i))

/-- The buffer after an answer. -/
def bufOf (size : Nat) (m : Bytes) : Bytes := (m ++ List.replicate size 0).take size

theorem bufOf_length (size : Nat) (m : Bytes) : (bufOf size m).length = size := by
  unfold bufOf; simp

theorem piece_eq (size : Nat) (m : Bytes) (i : Nat) : piece size m i = ((bufOf size m).drop (16 * i)).take 16 := rfl

/-- The four kinds of answer. -/
theorem answer_cases (size : Nat) (reply : Option Bytes) :
    (answer (List.replicate size 0) size reply = .ok (-1, bufOf size []) ∧ sent reply = []) ∨
    (∃ n, Lone reply n ∧ answer (List.replicate size 0) size reply = .ok (n, bufOf size [])) ∨
    (sent reply ≠ [] ∧ answer (List.replicate size 0) size reply =
      .ok ((min (sent reply).length size : Nat), bufOf size (sent reply))) := by
  have h0 : bufOf size [] = List.replicate size 0 := by simp [bufOf]
  match reply with
  | none => left; rw [h0]; exact ⟨rfl, rfl⟩
  | some [] => left; rw [h0]; exact ⟨rfl, rfl⟩
  | some [b] =>
    rw [h0]
    by_cases hb : b = 255
    · left; subst hb; exact ⟨rfl, rfl⟩
    · right; left
      refine ⟨b.toNat, ⟨b, rfl, hb, rfl⟩, ?_⟩
      simp only [answer, if_neg hb]
  | some (x :: y :: m) =>
    right; right
    refine ⟨by simp [sent], ?_⟩
    unfold answer
    simp only [sent, List.drop_succ_cons, List.drop_zero]
    rw [copyN_full _ _ _ _ (by omega) (by simp; omega), Out.ok_bind]
    have : bufOf size (y :: m) = (y :: m).take (min (y :: m).length size) ++
        (List.replicate size (0 : Byte)).drop (0 + min (y :: m).length size) := by
      unfold bufOf
      rw [List.take_append, List.drop_replicate, List.take_replicate]
      congr 1
      · by_cases h : (y :: m).length ≤ size
        · rw [Nat.min_eq_left h, List.take_length, List.take_of_length_le h]
        · rw [Nat.min_eq_right (by omega)]
      · congr 1; omega
    rw [this]
    rfl

theorem addrAt_buf (size : Nat) (m : Bytes) (i : Nat) (h : 16 * i + 16 ≤ size) :
    addrAt (bufOf size m) (16 * i) = .ok (piece size m i) := by
  unfold addrAt
  rw [if_pos (by rw [bufOf_length]; exact h)]
  rfl

theorem logLoop_ok (size : Nat) (m : Bytes) (iplen : Int) (hs : size % 16 = 0) (hl : iplen ≤ size) (k i : Nat) :
    ∃ us, logLoop (bufOf size m) iplen k (16 * i) = .ok us ∧ us.length ≤ k ∧
      ∀ u ∈ us, ∃ j, 16 * j + 16 ≤ size ∧ u = .log (piece size m j) := by
  induction k generalizing i with
  | zero => exact ⟨[], rfl, by simp, by simp⟩
  | succ k ih =>
    unfold logLoop
    split
    · next h =>
      have hb : 16 * i + 16 ≤ size := by omega
      rw [addrAt_buf size m i hb]
      obtain ⟨us, h1, h2, h3⟩ := ih (i + 1)
      have h1' : logLoop (bufOf size m) iplen k (16 * i + 16) = .ok us := h1
      simp only [Out.ok_bind]
      rw [h1']
      refine ⟨.log (piece size m i) :: us, rfl, by simp; omega, ?_⟩
      intro u hu
      rcases List.mem_cons.1 hu with rfl | hu
      · exact ⟨i, hb, rfl⟩
      · exact h3 u hu
    · exact ⟨[], rfl, by simp, by simp⟩

theorem tryLoop_ok (size : Nat) (m : Bytes) (now : Nat → Bool) (n i : Nat) (h : 16 * (i + n) ≤ size) :
    ∃ k, k ≤ n ∧ tryLoop (bufOf size m) now n i =
        .ok ((List.range k).map (fun j => .connect (i + j) (piece size m (i + j)))) ∧
      (k = n ∨ (0 < k ∧ now (i + (k - 1)) = true)) ∧ (∀ j, j + 1 < k → now (i + j) = false) := by
  induction n generalizing i with
  | zero => exact ⟨0, by omega, rfl, .inl rfl, by omega⟩
  | succ n ih =>
    unfold tryLoop
    rw [addrAt_buf size m i (by omega)]
    simp only [Out.ok_bind]
    cases hn : now i with
    | true => exact ⟨1, by omega, by simp [pure], .inr ⟨by omega, hn⟩, by omega⟩
    | false =>
      obtain ⟨k, h1, h2, h3, h4⟩ := ih (i + 1) (by omega)
      refine ⟨k + 1, by omega, ?_, ?_, ?_⟩
      · simp only [Bool.false_eq_true, if_false]
        rw [h2, Out.ok_bind, List.range_succ_eq_map]
        simp only [List.map_cons, List.map_map, Nat.add_zero]
        show Out.ok _ = Out.ok _
        congr 2
        apply List.map_congr_left
        intro j _
        simp only [Function.comp]
        rw [show i + 1 + j = i + (j + 1) by omega]
      · rcases h3 with h3 | ⟨h3, h5⟩
        · left; omega
        · right
          refine ⟨by omega, ?_⟩
          rw [show i + (k + 1 - 1) = i + 1 + (k - 1) by omega]
          exact h5
      · intro j hj
        cases j with
        | zero => exact hn
        | succ j =>
          rw [show i + (j + 1) = i + 1 + j by omega]
          exact h4 j (by omega)

theorem tryAll_ok (size : Nat) (m : Bytes) (now : Nat → Bool) (iplen : Int) (hl : iplen ≤ size ∨ 128 ≤ size) :
    (iplen < 16 ∧ tryAll (bufOf size m) iplen now = .ok none) ∨
    (16 ≤ iplen ∧ ∃ k : Nat, k ≤ 8 ∧ 16 * (k : Int) ≤ iplen ∧ k ≤ size / 16 ∧
      tryAll (bufOf size m) iplen now =
        .ok (some ((List.range k).map (fun j => .connect j (piece size m j)))) ∧
      (k = (min iplen 128).toNat / 16 ∨ (0 < k ∧ now (k - 1) = true)) ∧ (∀ j : Nat, j + 1 < k → now j = false)) := by
  have hmin : (if iplen > 8 * 16 then (8 * 16 : Int) else iplen) = min iplen 128 := by split <;> omega
  unfold tryAll
  simp only [hmin]
  by_cases h : iplen < 16
  · left; exact ⟨h, if_pos (by omega)⟩
  · right
    rw [if_neg (by omega)]
    obtain ⟨k, h1, h2, h3, h4⟩ := tryLoop_ok size m now ((min iplen 128).toNat / 16) 0 (by omega)
    rw [h2]
    simp only [Nat.zero_add] at h3 h4 ⊢
    exact ⟨by omega, k, by omega, by omega, by omega, rfl, h3, h4⟩

theorem only_connects (size n k : Nat) (m : Bytes) (h : k ≤ n) :
    Only size n m ((List.range k).map (fun j => .connect j (piece size m j))) := by
  intro u hu
  obtain ⟨j, hj, rfl⟩ := List.mem_map.1 hu
  exact ⟨j, by have := List.mem_range.1 hj; omega, .inr rfl⟩

/-- **C97 (tlswrapper-tcp).** Whatever datagram the resolver process sends (or none): the program
never writes outside its address buffer, and unless the datagram is the lone byte of
`c97_tcp_overread`, it never reads outside of it either; every address it prints or connects
to is one that was sent (padded with zero bytes), there are at most eight of them, and it
goes on only if it has connected to some.
Missing for the full property: the code does read outside in the excepted case. -/
theorem c97_tcp_partial (debug : Bool) (reply : Option Bytes) (now : Nat → Bool)
    (hx : ¬ (debug = true ∧ ∃ n, Lone reply n ∧ 128 < n)) :
    ∃ us dead, tcpUses debug reply now = .ok (us, dead) ∧ Only 128 8 (sent reply) us ∧
      (dead = false → ∃ i a, .connect i a ∈ us) := by
  have key : ∀ (iplen : Int) (m : Bytes), 0 < iplen → (debug = true → iplen ≤ 128) →
      ∃ us dead, (do
        let logs ← (if debug then logLoop (bufOf 128 m) iplen 256 0 else .ok [])
        match ← tryAll (bufOf 128 m) iplen now with
        | none => return (logs, true)
        | some us => return (logs ++ us, false) : Out (List Use × Bool)) = .ok (us, dead) ∧
        Only 128 8 m us ∧ (dead = false → ∃ i a, .connect i a ∈ us) := by
    intro iplen m h0 hd
    have hlogs : ∃ logs, (if debug then logLoop (bufOf 128 m) iplen 256 0 else .ok []) = .ok logs ∧
        Only 128 8 m logs := by
      cases debug with
      | false => exact ⟨[], rfl, by simp [Only]⟩
      | true =>
        obtain ⟨us, h1, -, h3⟩ := logLoop_ok 128 m iplen (by decide) (hd rfl) 256 0
        refine ⟨us, by simpa using h1, ?_⟩
        intro u hu
        obtain ⟨j, hj, e⟩ := h3 u hu
        exact ⟨j, by omega, .inl e⟩
    obtain ⟨logs, hlo, hon⟩ := hlogs
    rw [hlo, Out.ok_bind]
    rcases tryAll_ok 128 m now iplen (.inr (by omega)) with ⟨-, h⟩ | ⟨h16, k, h1, -, -, h, h5, -⟩
    · rw [h]
      exact ⟨logs, true, rfl, hon, by simp⟩
    · rw [h]
      refine ⟨_, false, rfl, ?_, fun _ => ?_⟩
      · intro u hu
        rcases List.mem_append.1 hu with hu | hu
        · exact hon u hu
        · exact only_connects 128 8 k m h1 u hu
      · have hk : 0 < k := by rcases h5 with h5 | ⟨h5, -⟩ <;> omega
        exact ⟨0, piece 128 m 0, List.mem_append.2 (.inr (List.mem_map.2 ⟨0, List.mem_range.2 hk, rfl⟩))⟩
  unfold tcpUses
  rcases answer_cases 128 reply with ⟨h, -⟩ | ⟨n, hn, h⟩ | ⟨hne, h⟩
  · have h' : answer (List.replicate 128 0) 128 reply = .ok (-1, bufOf 128 []) := h
    rw [h']
    exact ⟨[], true, rfl, by simp [Only], by simp⟩
  · have h' : answer (List.replicate 128 0) 128 reply = .ok ((n : Int), bufOf 128 []) := h
    rw [h']
    simp only [Out.ok_bind]
    rw [if_neg (by omega)]
    have hs : sent reply = [] := by obtain ⟨b, rfl, -⟩ := hn; rfl
    by_cases h0 : (n : Int) = 0
    · rw [if_pos h0]; exact ⟨[], true, rfl, by simp [Only], by simp⟩
    · rw [if_neg h0, hs]
      refine key n [] (by omega) ?_
      intro hd
      rcases Nat.lt_or_ge 128 n with hgt | hle
      · exact absurd ⟨hd, n, hn, hgt⟩ hx
      · omega
  · have h' : answer (List.replicate 128 0) 128 reply =
        .ok ((min (sent reply).length 128 : Nat), bufOf 128 (sent reply)) := h
    rw [h']
    have : 0 < (sent reply).length := List.length_pos_iff.2 hne
    simp only [Out.ok_bind]
    rw [if_neg (by omega), if_neg (by omega)]
    exact key _ _ (by omega) (by omega)

/-- **C97 (a proper answer).** When the resolver process sends one to eight whole addresses, exactly
these are used, in this order: all are printed (if the verbosity asks for it) and all are
tried, up to the first to which there is a connection at once. -/
theorem c97_tcp_addresses (debug : Bool) (b : Byte) (as : List Bytes) (h16 : ∀ a ∈ as, a.length = 16)
    (h1 : 1 ≤ as.length) (h8 : as.length ≤ 8) (now : Nat → Bool) :
    ∃ k, 1 ≤ k ∧ k ≤ as.length ∧ (k = as.length ∨ now (k - 1) = true) ∧ (∀ j, j + 1 < k → now j = false) ∧
      tcpUses debug (some (b :: as.flatten)) now =
        .ok ((if debug then as.map .log else []) ++
          (as.take k).zipIdx.map (fun p => .connect p.2 p.1), false) := by
  have hlen : as.flatten.length = 16 * as.length := by
    clear h1 h8
    induction as with
    | nil => rfl
    | cons a as ih =>
      simp only [List.flatten_cons, List.length_append, List.length_cons]
      rw [ih (fun x hx => h16 x (by simp [hx])), h16 a (by simp)]
      omega
  have hpiece : ∀ i (hi : i < as.length), piece 128 as.flatten i = as[i] := by
    intro i hi
    have hb : bufOf 128 as.flatten = as.flatten ++ List.replicate (128 - 16 * as.length) 0 := by
      unfold bufOf
      rw [List.take_append, List.take_of_length_le (by omega), List.take_replicate, hlen]
      congr 2
      omega
    rw [piece_eq, hb]
    clear hb
    generalize List.replicate (128 - 16 * as.length) (0 : Byte) = z
    clear h1 h8 hlen
    induction as generalizing i with
    | nil => simp at hi
    | cons a as ih =>
      have ha : a.length = 16 := h16 a (by simp)
      cases i with
      | zero =>
        simp only [List.flatten_cons, Nat.mul_zero, List.drop_zero, List.getElem_cons_zero, List.append_assoc]
        rw [List.take_append_of_le_length (by omega), List.take_of_length_le (by omega)]
      | succ i =>
        simp only [List.flatten_cons, List.append_assoc, List.getElem_cons_succ]
        rw [List.drop_append, List.drop_of_length_le (by omega), List.nil_append,
          show 16 * (i + 1) - a.length = 16 * i by omega]
        exact ih (fun x hx => h16 x (by simp [hx])) i (by simpa using hi)
  have hne : sent (some (b :: as.flatten)) ≠ [] := by
    intro h
    have := congrArg List.length h
    simp [sent, hlen] at this
    omega
  rcases answer_cases 128 (some (b :: as.flatten)) with ⟨-, h⟩ | ⟨n, ⟨c, hc, -⟩, -⟩ | ⟨-, h⟩
  · exact absurd h hne
  · simp only [Option.some.injEq, List.cons.injEq] at hc
    have := congrArg List.length hc.2
    simp [hlen] at this
    omega
  · have hs : sent (some (b :: as.flatten)) = as.flatten := rfl
    rw [hs, hlen, Nat.min_eq_left (by omega)] at h
    have h' : answer (List.replicate 128 0) 128 (some (b :: as.flatten)) =
      .ok ((16 * as.length : Nat), bufOf 128 as.flatten) := h
    have hlogs : logLoop (bufOf 128 as.flatten) ((16 * as.length : Nat) : Int) 256 0 = .ok (as.map .log) := by
      have gen : ∀ (k i : Nat), i ≤ as.length → as.length - i < k →
          logLoop (bufOf 128 as.flatten) ((16 * as.length : Nat) : Int) k (16 * i) = .ok ((as.drop i).map .log) := by
        intro k
        induction k with
        | zero => intro i hi hk; omega
        | succ k ih =>
          intro i hi hk
          unfold logLoop
          by_cases hc : i < as.length
          · rw [if_pos (by omega), addrAt_buf 128 as.flatten i (by omega), Out.ok_bind, hpiece i hc]
            have := ih (i + 1) (by omega) (by omega)
            rw [show 16 * (i + 1) = 16 * i + 16 by omega] at this
            rw [this, Out.ok_bind, List.drop_eq_getElem_cons hc]
            rfl
          · rw [if_neg (by omega), List.drop_of_length_le (by omega)]
            rfl
      have := gen 256 0 (by omega) (by omega)
      simpa using this
    rcases tryAll_ok 128 as.flatten now ((16 * as.length : Nat) : Int) (.inr (by omega)) with ⟨h, -⟩ | ⟨-, k, k1, k2, -, k4, k5, k6⟩
    · omega
    · have hk : k ≤ as.length := by omega
      have hk1 : 1 ≤ k := by rcases k5 with k5 | ⟨k5, -⟩ <;> omega
      refine ⟨k, hk1, hk, ?_, k6, ?_⟩
      · rcases k5 with k5 | ⟨-, k5⟩
        · left; omega
        · exact .inr k5
      · unfold tcpUses
        rw [h']
        simp only [Out.ok_bind]
        rw [if_neg (by omega), if_neg (by omega), k4]
        have hc : (List.range k).map (fun j => Use.connect j (piece 128 as.flatten j)) =
            (as.take k).zipIdx.map (fun p => .connect p.2 p.1) := by
          apply List.ext_getElem
          · simp; omega
          · intro i h1 h2
            simp only [List.length_map, List.length_range] at h1
            simp [hpiece i (by omega)]
        cases debug with
        | true => simp only [if_true]; rw [hlogs, hc]; rfl
        | false => simp only [Bool.false_eq_true, if_false]; rw [hc]; rfl

/-- **C97 (tlswrapper-smtp).** The same for the greylist server, of whose addresses only the first is
kept: unless the datagram is the lone byte of `c97_smtp_overread`, nothing outside the buffer
is read, and only the first address sent is printed or connected to. -/
theorem c97_smtp_partial (debug closed : Bool) (reply : Option Bytes) (now : Nat → Bool)
    (hx : ¬ (now 0 = false ∧ ∃ n, Lone reply n ∧ 32 ≤ n)) :
    ∃ us dead, smtpUses debug closed reply now = .ok (us, dead) ∧ Only 16 1 (sent reply) us := by
  have hlog : ∀ m, (if debug then do return [.log (← addrAt (bufOf 16 m) 0)] else .ok [] : Out (List Use)) =
      .ok (if debug then [.log (piece 16 m 0)] else []) := by
    intro m
    cases debug with
    | false => rfl
    | true =>
      have := addrAt_buf 16 m 0 (by omega)
      simp only [Nat.mul_zero] at this
      simp only [if_true]
      rw [this]
      rfl
  have hon : ∀ m, Only 16 1 m (if debug then [.log (piece 16 m 0)] else []) := by
    intro m u hu
    split at hu
    · simp only [List.mem_singleton] at hu
      exact ⟨0, by omega, .inl hu⟩
    · simp at hu
  have key : ∀ (iplen : Int) (m : Bytes), (∃ r, tryAll (bufOf 16 m) iplen now = .ok r ∧
        ∀ us, r = some us → Only 16 1 m us) →
      ∃ us dead, (do
        let logs ← (if debug then do return [.log (← addrAt (bufOf 16 m) 0)] else .ok [])
        match ← tryAll (bufOf 16 m) iplen now with
        | none => return (logs, closed)
        | some us => return (logs ++ us, false) : Out (List Use × Bool)) = .ok (us, dead) ∧ Only 16 1 m us := by
    intro iplen m ⟨r, h, ho⟩
    rw [hlog, Out.ok_bind, h]
    cases r with
    | none => exact ⟨_, closed, rfl, hon m⟩
    | some us =>
      refine ⟨_, false, rfl, ?_⟩
      intro u hu
      rcases List.mem_append.1 hu with hu | hu
      · exact hon m u hu
      · exact ho us rfl u hu
  have small : ∀ (iplen : Int) (m : Bytes), iplen < 32 →
      ∃ r, tryAll (bufOf 16 m) iplen now = .ok r ∧ ∀ us, r = some us → Only 16 1 m us := by
    intro iplen m hl
    by_cases hl' : iplen < 16
    · refine ⟨none, ?_, by simp⟩
      unfold tryAll
      simp only []
      rw [if_neg (show ¬ iplen > 8 * 16 by omega), if_pos hl']
    · have e : tryAll (bufOf 16 m) iplen now = tryAll (bufOf 16 m) 16 now := by
        unfold tryAll
        simp only []
        rw [if_neg (show ¬ iplen > 8 * 16 by omega), if_neg hl', show iplen.toNat / 16 = 1 by omega]
        rfl
      rw [e]
      rcases tryAll_ok 16 m now 16 (.inl (by omega)) with ⟨h, -⟩ | ⟨-, k, -, -, k3, k4, -⟩
      · omega
      · exact ⟨_, k4, fun us hus => by
          cases hus
          exact only_connects 16 1 k m (by omega)⟩
  unfold smtpUses
  rcases answer_cases 16 reply with ⟨h, -⟩ | ⟨n, hn, h⟩ | ⟨hne, h⟩
  · have h' : answer (List.replicate 16 0) 16 reply = .ok (-1, bufOf 16 []) := h
    rw [h']
    exact ⟨[], true, rfl, by simp [Only]⟩
  · have h' : answer (List.replicate 16 0) 16 reply = .ok ((n : Int), bufOf 16 []) := h
    rw [h']
    have hs : sent reply = [] := by obtain ⟨b, rfl, -⟩ := hn; rfl
    simp only [Out.ok_bind]
    rw [if_neg (by omega)]
    by_cases h0 : (n : Int) = 0
    · rw [if_pos h0]; exact ⟨[], true, rfl, by simp [Only]⟩
    · rw [if_neg h0, hs]
      refine key n [] ?_
      rcases Nat.lt_or_ge n 32 with hlt | hge
      · exact small n [] (by omega)
      · have hnow : now 0 = true := by
          cases h1 : now 0 with
          | true => rfl
          | false => exact absurd ⟨h1, n, hn, hge⟩ hx
        refine ⟨some [.connect 0 (piece 16 [] 0)], ?_, ?_⟩
        · unfold tryAll
          simp only []
          rw [if_neg (show ¬ (if (n : Int) > 8 * 16 then (8 * 16 : Int) else n) < 16 by split <;> omega)]
          obtain ⟨j, hj⟩ : ∃ j, (if (n : Int) > 8 * 16 then (8 * 16 : Int) else n).toNat / 16 = j + 1 :=
            ⟨(if (n : Int) > 8 * 16 then (8 * 16 : Int) else n).toNat / 16 - 1, by split <;> omega⟩
          rw [hj]
          unfold tryLoop
          rw [addrAt_buf 16 [] 0 (by omega), Out.ok_bind, if_pos hnow]
          rfl
        · intro us hus
          cases hus
          intro u hu
          simp only [List.mem_singleton] at hu
          exact ⟨0, by omega, .inr hu⟩
  · have h' : answer (List.replicate 16 0) 16 reply =
        .ok ((min (sent reply).length 16 : Nat), bufOf 16 (sent reply)) := h
    rw [h']
    have : 0 < (sent reply).length := List.length_pos_iff.2 hne
    simp only [Out.ok_bind]
    rw [if_neg (by omega), if_neg (by omega)]
    exact key _ _ (small _ _ (by omega))

/-- **C97 (no address).** No answer, an empty one, "no data" or "failed" ends both programs with an error
before anything is printed or tried. -/
theorem c97_none (debug closed : Bool) (reply : Option Bytes) (now : Nat → Bool)
    (h : reply = none ∨ reply = some [] ∨ reply = some [0] ∨ reply = some [255]) :
    tcpUses debug reply now = .ok ([], true) ∧ smtpUses debug closed reply now = .ok ([], true) := by
  rcases h with rfl | rfl | rfl | rfl <;> exact ⟨rfl, rfl⟩

/-- **C97 (less than an address).** When less than a whole address was sent, no connection is tried;
tlswrapper-tcp ends, tlswrapper-smtp ends or goes on without greylisting, as the option says. -/
theorem c97_short (debug closed : Bool) (reply : Option Bytes) (now : Nat → Bool)
    (h0 : 0 < (sent reply).length) (h : (sent reply).length < 16) :
    (∃ us, tcpUses debug reply now = .ok (us, true) ∧ ∀ i a, .connect i a ∉ us) ∧
    (∃ us, smtpUses debug closed reply now = .ok (us, closed) ∧ ∀ i a, .connect i a ∉ us) := by
  have hne : sent reply ≠ [] := List.length_pos_iff.1 h0
  have hl : ∀ n, ¬ Lone reply n := by
    rintro n ⟨b, rfl, -⟩
    exact hne rfl
  constructor
  · obtain ⟨logs, h1, -, h3⟩ := logLoop_ok 128 (sent reply) (sent reply).length (by decide) (by omega) 256 0
    simp only [Nat.mul_zero] at h1
    rcases answer_cases 128 reply with ⟨-, h2⟩ | ⟨n, hn, -⟩ | ⟨-, h2⟩
    · exact absurd h2 hne
    · exact absurd hn (hl n)
    · rw [Nat.min_eq_left (by omega)] at h2
      have h2' : answer (List.replicate 128 0) 128 reply =
        .ok (((sent reply).length : Nat), bufOf 128 (sent reply)) := h2
      unfold tcpUses
      rw [h2']
      simp only [Out.ok_bind]
      rw [if_neg (by omega), if_neg (by omega)]
      rcases tryAll_ok 128 (sent reply) now (sent reply).length (.inr (by omega)) with ⟨-, h4⟩ | ⟨h4, -⟩
      · rw [h4]
        cases debug with
        | false => exact ⟨[], rfl, by simp⟩
        | true =>
          simp only [if_true]
          rw [h1]
          refine ⟨logs, rfl, ?_⟩
          intro i a hm
          obtain ⟨j, -, e⟩ := h3 _ hm
          cases e
      · omega
  · rcases answer_cases 16 reply with ⟨-, h2⟩ | ⟨n, hn, -⟩ | ⟨-, h2⟩
    · exact absurd h2 hne
    · exact absurd hn (hl n)
    · rw [Nat.min_eq_left (by omega)] at h2
      have h2' : answer (List.replicate 16 0) 16 reply =
        .ok (((sent reply).length : Nat), bufOf 16 (sent reply)) := h2
      unfold smtpUses
      rw [h2']
      simp only [Out.ok_bind]
      rw [if_neg (by omega), if_neg (by omega)]
      rcases tryAll_ok 16 (sent reply) now (sent reply).length (.inl (by omega)) with ⟨-, h4⟩ | ⟨h4, -⟩
      · rw [h4]
        cases debug with
        | false => exact ⟨[], rfl, by simp⟩
        | true =>
          have := addrAt_buf 16 (sent reply) 0 (by omega)
          simp only [Nat.mul_zero] at this
          simp only [if_true]
          rw [this]
          exact ⟨[.log (piece 16 (sent reply) 0)], rfl, by simp⟩
      · omega

/-- **C97 (violation, tlswrapper-tcp).** One byte from 129 to 254 claims more addresses than the buffer
holds: with debug output on, the program prints up to 128 bytes of memory behind the buffer as
addresses. -/
theorem c97_tcp_overread (b : Byte) (hb : b ≠ 255) (hb2 : 129 ≤ b.toNat) (now : Nat → Bool) :
    tcpUses true (some [b]) now = .ub := by
  unfold tcpUses
  simp only [answer, if_neg hb, Out.ok_bind]
  rw [if_neg (by omega), if_neg (by omega)]
  have gen : ∀ k i, i ≤ 8 → 8 - i < k →
      logLoop (List.replicate 128 0) (b.toNat : Int) k (16 * i) = .ub := by
    intro k
    induction k with
    | zero => intro i hi hk; omega
    | succ k ih =>
      intro i hi hk
      unfold logLoop
      rw [if_pos (by omega)]
      by_cases h : i = 8
      · subst h
        unfold addrAt
        rw [if_neg (by rw [List.length_replicate]; omega)]
        rfl
      · have h1 : addrAt (List.replicate 128 0) (16 * i) = .ok (piece 128 [] i) := by
          have := addrAt_buf 128 [] i (by omega)
          rwa [show bufOf 128 [] = List.replicate 128 0 by simp [bufOf]] at this
        rw [h1, Out.ok_bind]
        have := ih (i + 1) (by omega) (by omega)
        rw [show 16 * (i + 1) = 16 * i + 16 by omega] at this
        rw [this]
        rfl
  have := gen 256 0 (by omega) (by omega)
  simp only [Nat.mul_zero] at this
  simp only [if_true]
  rw [this]
  rfl

/-- **C97 (violation, tlswrapper-smtp).** One byte from 32 to 254 claims more addresses than the one the
buffer holds: at any verbosity the program reads the memory behind the buffer as addresses
to connect to (it fails to, having no socket for them, and logs each of them as unreachable). -/
theorem c97_smtp_overread (debug closed : Bool) (b : Byte) (hb : b ≠ 255) (hb2 : 32 ≤ b.toNat) (now : Nat → Bool)
    (h0 : now 0 = false) : smtpUses debug closed (some [b]) now = .ub := by
  unfold smtpUses
  simp only [answer, if_neg hb, Out.ok_bind]
  rw [if_neg (by omega), if_neg (by omega)]
  have h1 : addrAt (List.replicate 16 0) 0 = .ok (piece 16 [] 0) := addrAt_buf 16 [] 0 (by omega)
  have h2 : tryAll (List.replicate 16 0) (b.toNat : Int) now = .ub := by
    unfold tryAll
    simp only []
    rw [if_neg (show ¬ (if (b.toNat : Int) > 8 * 16 then (8 * 16 : Int) else b.toNat) < 16 by split <;> omega)]
    obtain ⟨j, hj⟩ : ∃ j, (if (b.toNat : Int) > 8 * 16 then (8 * 16 : Int) else b.toNat).toNat / 16 = j + 2 :=
      ⟨(if (b.toNat : Int) > 8 * 16 then (8 * 16 : Int) else b.toNat).toNat / 16 - 2, by split <;> omega⟩
    rw [hj]
    unfold tryLoop
    rw [show 16 * 0 = 0 from rfl, h1, Out.ok_bind, h0]
    rfl
  cases debug with
  | false => simp only [Bool.false_eq_true, if_false, Out.ok_bind]; rw [h2]; rfl
  | true => simp only [if_true]; rw [h1]; simp only [Out.ok_bind]; show (do let _ ← tryAll _ _ _; _) = _; rw [h2]; rfl

/-- **C97 (an honest resolver process).** The resolver process as it is never sends such a byte: with
it neither program reads outside its buffer, whatever the system's resolver says. -/
theorem c97_honest (host buf0 ip0 : Bytes) (hn : NoNul host) (hh : host.length ≤ 255) (hb : buf0.length = 257)
    (hi : ip0.length = 129) (gai : Bytes → Gai) (hok : ∀ as, gai host = .list as → ∀ a ∈ as, a.Ok)
    (rnd : Nat → Bytes) (debug closed : Bool) (now : Nat → Bool) :
    ∃ m, helperReply buf0 ip0 (host ++ List.replicate (256 - host.length) 0) gai rnd = .ok m ∧
      tcpUses debug (some m) now ≠ .ub ∧ smtpUses debug closed (some m) now ≠ .ub := by
  have fin : ∀ m, (∀ n, Lone (some m) n → n = 0) →
      tcpUses debug (some m) now ≠ .ub ∧ smtpUses debug closed (some m) now ≠ .ub := by
    intro m hm
    constructor
    · obtain ⟨us, d, h, -⟩ := c97_tcp_partial debug (some m) now
        (fun ⟨_, n, h1, h2⟩ => by have := hm n h1; omega)
      rw [h]; simp
    · obtain ⟨us, d, h, -⟩ := c97_smtp_partial debug closed (some m) now
        (fun ⟨_, n, h1, h2⟩ => by have := hm n h1; omega)
      rw [h]; simp
  cases hg : gai host with
  | fail nd =>
    rw [helperReply_eq host buf0 ip0 hn hh hb, hg]
    cases nd with
    | true =>
      refine ⟨[0], rfl, fin _ ?_⟩
      rintro n ⟨b, h1, -, h3⟩
      cases h1
      exact h3.symm
    | false =>
      refine ⟨[255], rfl, fin _ ?_⟩
      rintro n ⟨b, h1, h2, -⟩
      cases h1
      exact absurd rfl h2
  | list as =>
    obtain ⟨bs, e, p, -⟩ := c34_helper host buf0 ip0 hn hh hb hi gai as hg (hok as hg) rnd
    refine ⟨_, e, fin _ ?_⟩
    rintro n ⟨b, h1, -, h3⟩
    simp only [Option.some.injEq, List.cons.injEq] at h1
    cases bs with
    | nil => rw [← h3, ← h1.1]; rfl
    | cons x bs =>
      have hx : x ∈ wanted as 8 := p.mem_iff.1 (by simp)
      obtain ⟨a, ha, hax⟩ := List.mem_filterMap.1 (List.mem_of_mem_take hx)
      have hl := hok as hg a ha
      have h0 := List.flatten_eq_nil_iff.1 h1.2 x (by simp)
      subst h0
      cases a with
      | v4 y => simp [Answer.addr] at hax
      | v6 y => simp only [Answer.addr, Option.some.injEq] at hax; subst hax; simp [Answer.Ok] at hl
      | other => simp [Answer.addr] at hax

/-- Two addresses, debug output on, neither connects at once. -/
example : tcpUses true (some (32 :: (List.replicate 16 1 ++ List.replicate 16 2))) (fun _ => false) =
    .ok ([.log (List.replicate 16 1), .log (List.replicate 16 2), .connect 0 (List.replicate 16 1),
      .connect 1 (List.replicate 16 2)], false) := by decide +kernel

/-- A lone byte within the buffer: eight times the unspecified address. -/
example : (match tcpUses false (some [128]) (fun _ => false) with
    | .ok (us, d) => decide (us.length = 8 ∧ us[7]? = some (.connect 7 (List.replicate 16 0)) ∧ d = false)
    | .ub => false) = true := by decide +kernel

example : smtpUses true false (some (32 :: (List.replicate 16 1 ++ List.replicate 16 2))) (fun _ => false) =
    .ok ([.log (List.replicate 16 1), .connect 0 (List.replicate 16 1)], false) := by decide +kernel

end Resolve
