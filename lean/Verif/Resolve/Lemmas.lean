import Verif.Resolve.Spec
import Verif.BaseLemmas
namespace Resolve

theorem randLoop_ok (n : Nat) (hn : 0 < n) (hb : n ≤ 2 ^ 55) (r : Bytes) : ∀ acc, acc < n →
    randLoop n acc r = .ok ((acc * 256 ^ r.length + value r) % n) := by
  induction r with
  | nil => intro acc h; simp [randLoop, value, Nat.mod_eq_of_lt h]
  | cons b r ih =>
    intro acc h
    rw [randLoop, if_neg (by omega), ih _ (Nat.mod_lt _ hn)]
    congr 1
    rw [value, List.length_cons, Nat.pow_succ]
    rw [Nat.add_mod, Nat.mul_mod, Nat.mod_mod, ← Nat.mul_mod, ← Nat.add_mod]
    congr 1
    rw [Nat.add_mul, Nat.mul_comm (256 ^ r.length) 256, Nat.mul_assoc]
    omega

theorem randommod_ok (n : Nat) (hb : n ≤ 2 ^ 55) (r : Bytes) :
    randommod n r = .ok (if n ≤ 1 then 0 else value r % n) := by
  unfold randommod
  by_cases h : n ≤ 1
  · rw [if_pos (by omega), if_pos h]
  · rw [if_neg (by omega), if_neg h, Int.toNat_natCast, randLoop_ok n (by omega) hb r 0 (by omega)]
    simp

theorem draws_length (k : Nat) : ∀ r ∈ draws k, r.length = k := by
  induction k with
  | zero => intro r h; simp only [draws, List.mem_singleton] at h; subst h; rfl
  | succ k ih =>
    intro r h
    simp only [draws, List.mem_flatMap, List.mem_map] at h
    obtain ⟨b, _, r', h1, rfl⟩ := h
    simp [ih r' h1]

theorem flatMap_range (m n : Nat) :
    (List.range m).flatMap (fun i => (List.range n).map (fun j => i * n + j)) = List.range (m * n) := by
  induction m with
  | zero => simp
  | succ m ih =>
    rw [List.range_succ, List.flatMap_append, ih, Nat.succ_mul, List.range_add]
    simp

theorem draws_value (k : Nat) : (draws k).map value = List.range (256 ^ k) := by
  induction k with
  | zero => rfl
  | succ k ih =>
    rw [draws, List.map_flatMap, Nat.pow_succ, Nat.mul_comm, ← flatMap_range, ← ih]
    rw [List.flatMap_def, List.flatMap_def]
    congr 1
    apply List.map_congr_left
    intro b hb
    rw [List.map_map, List.map_map]
    apply List.map_congr_left
    intro r hr
    simp only [Function.comp, value]
    have h1 : (UInt8.ofNat b).toNat = b := by
      rw [UInt8.toNat_ofNat']; exact Nat.mod_eq_of_lt (List.mem_range.1 hb)
    rw [h1, draws_length k r hr]

theorem count_residue (n a N : Nat) (hn : 0 < n) (ha : a < n) :
    ((List.range N).filter (fun x => x % n = a)).length = N / n + (if a < N % n then 1 else 0) := by
  induction N with
  | zero => simp
  | succ N ih =>
    rw [List.range_succ, List.filter_append, List.length_append, ih]
    have hd := Nat.div_add_mod N n
    have hlt := Nat.mod_lt N hn
    have e : (List.filter (fun x => decide (x % n = a)) [N]).length = if N % n = a then 1 else 0 := by
      by_cases h : N % n = a <;> simp [h]
    rw [e]
    by_cases hc : N % n + 1 = n
    · have e1 : (N + 1) % n = 0 := by
        have : N + 1 = n * (N / n + 1) := by rw [Nat.mul_add, Nat.mul_one]; omega
        rw [this, Nat.mul_mod_right]
      have e2 : (N + 1) / n = N / n + 1 := by
        have : N + 1 = n * (N / n + 1) := by rw [Nat.mul_add, Nat.mul_one]; omega
        rw [this, Nat.mul_div_cancel_left _ hn]
      rw [e1, e2]
      split <;> split <;> split <;> omega
    · have e1 : (N + 1) % n = N % n + 1 := by
        rw [Nat.add_mod]
        by_cases h1 : n = 1
        · omega
        · rw [Nat.mod_eq_of_lt (show 1 < n by omega), Nat.mod_eq_of_lt (by omega)]
      have e2 : (N + 1) / n = N / n := by
        have h3 := Nat.div_add_mod (N + 1) n
        rw [e1] at h3
        have : n * ((N + 1) / n) = n * (N / n) := by omega
        exact Nat.eq_of_mul_eq_mul_left hn this
      rw [e1, e2]
      split <;> split <;> split <;> omega

theorem preimages_eq (n a : Nat) (hn : 1 < n) (hb : n ≤ 2 ^ 55) (ha : a < n) :
    preimages n a = 2 ^ 256 / n + (if a < 2 ^ 256 % n then 1 else 0) := by
  unfold preimages
  have e : ∀ L : List Bytes, (L.filter (fun r => randommod n r = .ok a)).length =
      ((L.map value).filter (fun x => x % n = a)).length := by
    intro L
    rw [List.filter_map, List.length_map]
    congr 1
    apply List.filter_congr
    intro r _
    rw [randommod_ok n hb, if_neg (by omega)]
    simp only [Function.comp, Out.ok.injEq]
  rw [e, draws_value, count_residue n a _ (by omega) ha]

/-- Every number below 256^32 is some draw. -/
theorem draw_of (i : Nat) (h : i < 256 ^ 32) : ∃ r : Bytes, r.length = 32 ∧ value r = i := by
  have : i ∈ (draws 32).map value := by rw [draws_value]; exact List.mem_range.2 h
  obtain ⟨r, hr, e⟩ := List.mem_map.1 this
  exact ⟨r, draws_length 32 r hr, e⟩

/-! Blocks of 16 bytes. -/

def Blocks (bs : List Bytes) : Prop := ∀ b ∈ bs, b.length = 16

theorem Blocks.length {bs : List Bytes} (h : Blocks bs) : bs.flatten.length = 16 * bs.length := by
  induction bs with
  | nil => rfl
  | cons b bs ih =>
    simp only [List.flatten_cons, List.length_append, List.length_cons]
    rw [ih (fun x hx => h x (by simp [hx])), h b (by simp)]
    omega

theorem Blocks.take {bs : List Bytes} (h : Blocks bs) (i : Nat) : bs.flatten.take (16 * i) = (bs.take i).flatten := by
  induction bs generalizing i with
  | nil => simp
  | cons b bs ih =>
    cases i with
    | zero => simp
    | succ i =>
      rw [List.flatten_cons, List.take_succ_cons, List.flatten_cons, List.take_append, h b (by simp)]
      rw [List.take_of_length_le (by rw [h b (by simp)]; omega)]
      rw [show 16 * (i + 1) - 16 = 16 * i by omega, ih (fun x hx => h x (by simp [hx]))]

theorem Blocks.drop {bs : List Bytes} (h : Blocks bs) (i : Nat) : bs.flatten.drop (16 * i) = (bs.drop i).flatten := by
  induction bs generalizing i with
  | nil => simp
  | cons b bs ih =>
    cases i with
    | zero => simp
    | succ i =>
      rw [List.flatten_cons, List.drop_succ_cons, List.drop_append, h b (by simp)]
      rw [List.drop_eq_nil_of_le (by rw [h b (by simp)]; omega), List.nil_append]
      rw [show 16 * (i + 1) - 16 = 16 * i by omega, ih (fun x hx => h x (by simp [hx]))]

theorem Blocks.set {bs : List Bytes} (h : Blocks bs) (i : Nat) (b : Bytes) (hb : b.length = 16) : Blocks (bs.set i b) := by
  intro x hx
  rcases List.mem_or_eq_of_mem_set hx with hx | hx
  · exact h x hx
  · rw [hx]; exact hb

theorem Blocks.at {bs : List Bytes} (h : Blocks bs) (rest : Bytes) (i : Nat) (hi : i < bs.length) :
    ((bs.flatten ++ rest).drop (16 * i)).take 16 = bs[i] := by
  rw [List.drop_append_of_le_length (by rw [h.length]; omega), h.drop, List.drop_eq_getElem_cons hi, List.flatten_cons,
    List.append_assoc]
  rw [List.take_append_of_le_length (by rw [h _ (List.getElem_mem hi)]; omega),
    List.take_of_length_le (by rw [h _ (List.getElem_mem hi)]; omega)]

theorem copyBlock {bs : List Bytes} (h : Blocks bs) (rest src b : Bytes) (i : Nat) (hi : i < bs.length)
    (hs : 16 ≤ src.length) (hb : src.take 16 = b) :
    copyN (bs.flatten ++ rest) (16 * i) src 16 = .ok ((bs.set i b).flatten ++ rest) := by
  have hl := h.length
  rw [copyN_full _ _ _ _ hs (by rw [List.length_append]; omega), hb]
  congr 1
  rw [List.take_append_of_le_length (by omega), h.take, List.drop_append_of_le_length (by omega),
    show 16 * i + 16 = 16 * (i + 1) by omega, h.drop]
  rw [List.set_eq_take_append_cons_drop, if_pos hi]
  simp

/-- Exchange of two blocks. -/
def swapB (bs : List Bytes) (i j : Nat) : List Bytes :=
  (bs.set i (bs[j]?.getD [])).set j (bs[i]?.getD [])

theorem swapB_length (bs : List Bytes) (i j : Nat) : (swapB bs i j).length = bs.length := by simp [swapB]

theorem swapB_blocks {bs : List Bytes} (h : Blocks bs) (i j : Nat) (hi : i < bs.length) (hj : j < bs.length) :
    Blocks (swapB bs i j) := by
  unfold swapB
  rw [List.getElem?_eq_getElem hi, List.getElem?_eq_getElem hj]
  exact (h.set _ _ (h _ (List.getElem_mem hj))).set _ _ (h _ (List.getElem_mem hi))

theorem swap_ok {bs : List Bytes} (h : Blocks bs) (rest : Bytes) (i j : Nat) (hi : i < bs.length) (hj : j < bs.length) :
    swap (bs.flatten ++ rest) (16 * i) (16 * j) = .ok ((swapB bs i j).flatten ++ rest) := by
  have hl := h.length
  have hlen : ∀ k, k < bs.length → 16 ≤ ((bs.flatten ++ rest).drop (16 * k)).length := by
    intro k hk; rw [List.length_drop, List.length_append]; omega
  unfold swap
  rw [copyN_full _ _ _ _ (hlen i hi) (by simp), Out.ok_bind, h.at rest i hi]
  simp only [List.take_zero, List.nil_append, List.drop_replicate]
  rw [copyBlock h rest _ bs[j] i hi (hlen j hj) (h.at rest j hj), Out.ok_bind]
  have h2 := h.set i bs[j] (h _ (List.getElem_mem hj))
  rw [copyBlock h2 rest _ bs[i] j (by simpa using hj) (by simp [h _ (List.getElem_mem hi)])
    (by rw [List.take_of_length_le (by simp [h _ (List.getElem_mem hi)])]; simp)]
  unfold swapB
  rw [List.getElem?_eq_getElem hi, List.getElem?_eq_getElem hj]
  rfl

theorem cons_set_perm (xs : List Bytes) (i : Nat) (v : Bytes) (hi : i < xs.length) : (xs[i] :: xs.set i v).Perm (v :: xs) := by
  induction xs generalizing i with
  | nil => simp at hi
  | cons a xs ih =>
    cases i with
    | zero => exact List.Perm.swap v a xs
    | succ i =>
      have := ih i (by simpa using hi)
      simp only [List.getElem_cons_succ, List.set_cons_succ]
      exact ((List.Perm.swap a _ _).trans (this.cons a)).trans (List.Perm.swap v a xs)

theorem swapB_perm (bs : List Bytes) (i j : Nat) (hi : i < bs.length) (hj : j < bs.length) : (swapB bs i j).Perm bs := by
  unfold swapB
  rw [List.getElem?_eq_getElem hi, List.getElem?_eq_getElem hj]
  simp only [Option.getD_some]
  induction bs generalizing i j with
  | nil => simp at hi
  | cons a xs ih =>
    cases i with
    | zero =>
      cases j with
      | zero => simp
      | succ j =>
        have hj' : j < xs.length := by simpa using hj
        simpa using cons_set_perm xs j a hj'
    | succ i =>
      have hi' : i < xs.length := by simpa using hi
      cases j with
      | zero => simpa using cons_set_perm xs i a hi'
      | succ j =>
        have hj' : j < xs.length := by simpa using hj
        simpa using ih i j hi' hj'

theorem swapB_drop (bs : List Bytes) (i j n : Nat) (hi : i < n) (hj : j < n) : (swapB bs i j).drop n = bs.drop n := by
  unfold swapB
  rw [List.drop_set_of_lt (by omega), List.drop_set_of_lt (by omega)]

theorem swapB_take_perm (bs : List Bytes) (i j n : Nat) (hi : i < n) (hj : j < n) (hn : n ≤ bs.length) :
    ((swapB bs i j).take n).Perm (bs.take n) := by
  have := swapB_perm (bs.take n) i j (by simp; omega) (by simp; omega)
  have e : (swapB bs i j).take n = swapB (bs.take n) i j := by
    unfold swapB
    rw [List.take_set, List.take_set, List.getElem?_take_of_lt hi, List.getElem?_take_of_lt hj]
  rw [e]
  exact this

theorem swapB_get (bs : List Bytes) (i j : Nat) (hi : i < bs.length) (hj : j < bs.length) :
    (swapB bs i j)[j]? = bs[i]? := by
  unfold swapB
  rw [List.getElem?_set_self (by simpa using hj), List.getElem?_eq_getElem hi]
  rfl

theorem swapB_self (bs : List Bytes) (i : Nat) (hi : i < bs.length) : swapB bs i i = bs := by
  unfold swapB
  rw [List.getElem?_eq_getElem hi, Option.getD_some, List.set_set, List.set_getElem_self]

theorem shuffle_ok (rnd : Nat → Bytes) (rest : Bytes) : ∀ n (bs : List Bytes), Blocks bs → n ≤ bs.length → n ≤ 2 ^ 55 →
    ∃ bs', shuffle rnd n (bs.flatten ++ rest) = .ok (bs'.flatten ++ rest) ∧ bs'.Perm bs ∧ Blocks bs' := by
  intro n
  induction n using Nat.strongRecOn with
  | ind n ih =>
    intro bs h hn hb
    match n, ih, hn, hb with
    | 0, _, _, _ => exact ⟨bs, rfl, .refl _, h⟩
    | 1, _, _, _ => exact ⟨bs, rfl, .refl _, h⟩
    | n + 2, ih, hn, hb =>
      have hlt : value (rnd (n + 2)) % (n + 2) < n + 2 := Nat.mod_lt _ (by omega)
      obtain ⟨bs', e, p, hB⟩ := ih (n + 1) (by omega) (swapB bs (value (rnd (n + 2)) % (n + 2)) (n + 1))
        (swapB_blocks h _ _ (by omega) (by omega)) (by rw [swapB_length]; omega) (by omega)
      refine ⟨bs', ?_, p.trans (swapB_perm _ _ _ (by omega) (by omega)), hB⟩
      rw [shuffle, randommod_ok _ hb, Out.ok_bind, if_neg (by omega), swap_ok h rest _ _ (by omega) (by omega), Out.ok_bind, e]

/-- Every arrangement of the first `n` blocks is reached by some draws. -/
theorem shuffle_reach (rest : Bytes) : ∀ n (bs t : List Bytes), Blocks bs → n ≤ bs.length → n ≤ 2 ^ 55 →
    t.Perm (bs.take n) →
    ∃ rnd : Nat → Bytes, (∀ k, (rnd k).length = 32) ∧
      shuffle rnd n (bs.flatten ++ rest) = .ok ((t ++ bs.drop n).flatten ++ rest) := by
  intro n
  induction n with
  | zero =>
    intro bs t h hn hb p
    have : t = [] := by simpa using p.length_eq
    subst this
    exact ⟨fun _ => List.replicate 32 0, by simp, by simp [shuffle]⟩
  | succ n ih =>
    intro bs t h hn hb p
    cases n with
    | zero =>
      have : bs.take 1 = t := by
        match bs, hn with
        | b :: bs, _ =>
          simp only [Nat.zero_add, List.take_succ_cons, List.take_zero] at p
          rw [List.perm_singleton.1 p]; rfl
      refine ⟨fun _ => List.replicate 32 0, by simp, ?_⟩
      rw [shuffle, ← this, Nat.zero_add, List.take_append_drop]
    | succ n =>
      have hlen : t.length = n + 2 := by rw [p.length_eq, List.length_take]; omega
      have hne : t ≠ [] := by intro h; simp [h] at hlen
      obtain ⟨t', x, rfl⟩ : ∃ t' x, t = t' ++ [x] := ⟨t.dropLast, t.getLast hne, (List.dropLast_concat_getLast hne).symm⟩
      have hx : x ∈ bs.take (n + 2) := p.mem_iff.1 (by simp)
      obtain ⟨i, hi⟩ := List.mem_iff_getElem?.1 hx
      have hi2 : i < n + 2 := by
        have := (List.getElem?_eq_some_iff.1 hi).1
        rw [List.length_take] at this; omega
      rw [List.getElem?_take_of_lt hi2] at hi
      have hlast : (swapB bs i (n + 1))[n + 1]? = some x := by rw [swapB_get _ _ _ (by omega) (by omega), hi]
      have htk : (swapB bs i (n + 1)).take (n + 2) = (swapB bs i (n + 1)).take (n + 1) ++ [x] := by
        rw [List.take_add_one, hlast]; rfl
      have p2 : t'.Perm ((swapB bs i (n + 1)).take (n + 1)) := by
        have := p.trans (swapB_take_perm bs i (n + 1) (n + 2) hi2 (by omega) hn).symm
        rw [htk] at this
        exact (List.perm_append_right_iff _).1 this
      obtain ⟨rnd, hr, e⟩ := ih (swapB bs i (n + 1)) t' (swapB_blocks h _ _ (by omega) (by omega))
        (by rw [swapB_length]; omega) (by omega) p2
      obtain ⟨r, r1, r2⟩ := draw_of i (Nat.lt_of_lt_of_le (show i < 2 ^ 55 by omega) (by decide))
      refine ⟨fun k => if k = n + 2 then r else rnd k, ?_, ?_⟩
      · intro k; by_cases hk : k = n + 2
        · simp [hk, r1]
        · simp [hk, hr]
      · rw [shuffle, randommod_ok _ hb, Out.ok_bind, if_neg (by omega)]
        simp only [if_pos]
        rw [r2, Nat.mod_eq_of_lt hi2, swap_ok h rest _ _ (by omega) (by omega), Out.ok_bind]
        have ext : ∀ m s, m ≤ n + 1 → shuffle (fun k => if k = n + 2 then r else rnd k) m s = shuffle rnd m s := by
          intro m
          induction m using Nat.strongRecOn with
          | ind m ihm =>
            intro s hm
            match m, ihm, hm with
            | 0, _, _ => rfl
            | 1, _, _ => rfl
            | m + 2, ihm, hm =>
              rw [shuffle, shuffle, if_neg (by omega)]
              congr 1; funext i
              congr 1; funext s
              exact ihm (m + 1) (by omega) s (by omega)
        rw [ext _ _ (Nat.le_refl _), e]
        have : (swapB bs i (n + 1)).drop (n + 1) = x :: bs.drop (n + 2) := by
          rw [List.drop_eq_getElem_cons (by rw [swapB_length]; omega), swapB_drop _ _ _ _ hi2 (by omega)]
          congr 1
          have := List.getElem?_eq_some_iff.1 hlast
          exact this.2
        rw [this]
        simp

/-- Position of the first native IPv6 address. -/
theorem preferV6_ok {bs : List Bytes} (h : Blocks bs) (rest : Bytes) : ∀ k i, bs.length ≤ k + i → i ≤ bs.length →
    (∀ j (hj : j < i), ∀ b, bs[j]? = some b → ¬ isV6 b) →
    ∃ bs', preferV6 (bs.flatten ++ rest) (16 * bs.length) (k + 1) (16 * i) = .ok (bs'.flatten ++ rest) ∧ bs'.Perm bs ∧
      Blocks bs' ∧ ((∃ b ∈ bs, isV6 b) → ∃ b, bs'[0]? = some b ∧ isV6 b) ∧
      ((∀ b, bs[0]? = some b → isV6 b) → i = 0 → bs' = bs) ∧ ((∀ b ∈ bs, ¬ isV6 b) → bs' = bs) := by
  intro k
  induction k with
  | zero =>
    intro i hk hi hj
    have : i = bs.length := by omega
    subst this
    have hno : ∀ b ∈ bs, ¬ isV6 b := by
      intro b hb
      obtain ⟨j, hj1⟩ := List.mem_iff_getElem?.1 hb
      exact hj j (List.getElem?_eq_some_iff.1 hj1).1 b hj1
    refine ⟨bs, ?_, .refl _, h, ?_, fun _ _ => rfl, fun _ => rfl⟩
    · rw [preferV6, if_neg (by omega)]
    · rintro ⟨b, hb, hv⟩; exact absurd hv (hno b hb)
  | succ k ih =>
    intro i hk hi hj
    by_cases hlt : i < bs.length
    · have hat := h.at rest i hlt
      have h12 : ((bs.flatten ++ rest).drop (16 * i)).take 12 = bs[i].take 12 := by
        rw [← hat, List.take_take, show min 12 16 = 12 from rfl]
      have hl := h.length
      rw [preferV6, if_pos (by omega), if_neg (by rw [List.length_append]; omega), h12]
      by_cases hv : isV6 bs[i]
      · rw [if_pos (show bs[i].take 12 ≠ v4prefix from hv), show (0 : Nat) = 16 * 0 from rfl, swap_ok h rest i 0 hlt (by omega)]
        refine ⟨_, rfl, swapB_perm _ _ _ hlt (by omega), swapB_blocks h _ _ hlt (by omega), ?_, ?_, ?_⟩
        · intro _
          exact ⟨bs[i], by rw [swapB_get _ _ _ hlt (by omega), List.getElem?_eq_getElem hlt], hv⟩
        · intro _ h0
          subst h0
          exact swapB_self bs 0 hlt
        · intro hno; exact absurd hv (hno _ (List.getElem_mem hlt))
      · rw [if_neg (show ¬ (bs[i].take 12 ≠ v4prefix) from hv), show 16 * i + 16 = 16 * (i + 1) by omega]
        obtain ⟨bs', e, p, hB, c1, c2, c3⟩ := ih (i + 1) (by omega) (by omega) (by
          intro j hj' b hb
          by_cases hji : j = i
          · subst hji
            rw [List.getElem?_eq_getElem hlt] at hb
            rw [← Option.some.inj hb]; exact hv
          · exact hj j (by omega) b hb)
        refine ⟨bs', e, p, hB, c1, ?_, c3⟩
        intro hv0 h0
        subst h0
        exact absurd (hv0 _ (List.getElem?_eq_getElem hlt)) hv
    · have : i = bs.length := by omega
      subst this
      have hno : ∀ b ∈ bs, ¬ isV6 b := by
        intro b hb
        obtain ⟨j, hj1⟩ := List.mem_iff_getElem?.1 hb
        exact hj j (List.getElem?_eq_some_iff.1 hj1).1 b hj1
      refine ⟨bs, ?_, .refl _, h, ?_, fun _ _ => rfl, fun _ => rfl⟩
      · rw [preferV6, if_neg (by omega)]
      · rintro ⟨b, hb, hv⟩; exact absurd hv (hno b hb)

theorem sortip_ok {bs : List Bytes} (h : Blocks bs) (rest : Bytes) (hb : bs.length ≤ 2 ^ 55) (rnd : Nat → Bytes) :
    ∃ bs', sortip (bs.flatten ++ rest) (16 * bs.length) rnd = .ok (bs'.flatten ++ rest) ∧ bs'.Perm bs ∧ Blocks bs' ∧
      ((∃ b ∈ bs, isV6 b) → ∃ b, bs'[0]? = some b ∧ isV6 b) := by
  unfold sortip
  have e : 16 * bs.length / 16 = bs.length := by omega
  rw [e]
  obtain ⟨b1, e1, p1, h1⟩ := shuffle_ok rnd rest bs.length bs h (by omega) hb
  rw [e1, Out.ok_bind]
  obtain ⟨b2, e2, p2, h2, c, _, _⟩ := preferV6_ok h1 rest bs.length 0 (by rw [p1.length_eq]; omega) (by omega) (fun j hj => absurd hj (by omega))
  rw [p1.length_eq] at e2
  refine ⟨b2, e2, p2.trans p1, h2, ?_⟩
  rintro ⟨b, hb1, hb2⟩
  exact c ⟨b, p1.mem_iff.2 hb1, hb2⟩

theorem collect_ok (iplen : Nat) : ∀ (as : List Answer), (∀ a ∈ as, a.Ok) → ∀ (bs : List Bytes) (rest : Bytes), Blocks bs →
    16 * bs.length + rest.length = iplen →
    ∃ rest', collect iplen as (bs.flatten ++ rest) (16 * bs.length) =
        .ok ((bs ++ wanted as (rest.length / 16)).flatten ++ rest', 16 * (bs ++ wanted as (rest.length / 16)).length) ∧
      Blocks (bs ++ wanted as (rest.length / 16)) ∧ 16 * (bs ++ wanted as (rest.length / 16)).length + rest'.length = iplen ∧
      (wanted as (rest.length / 16) = [] → rest' = rest) := by
  intro as
  induction as with
  | nil =>
    intro _ bs rest h hl
    refine ⟨rest, ?_, ?_, ?_, fun _ => rfl⟩ <;> simp [wanted, collect, h, hl]
  | cons a as ih =>
    intro hok bs rest h hl
    have hok' : ∀ a ∈ as, a.Ok := fun x hx => hok x (by simp [hx])
    have step : ∀ b : Bytes, b.length = 16 → a.addr = some b →
        (∀ bs rest, Blocks bs → 16 * bs.length + rest.length = iplen → 16 ≤ rest.length →
          collect iplen (a :: as) (bs.flatten ++ rest) (16 * bs.length) =
            collect iplen as (bs.flatten ++ (b ++ rest.drop 16)) (16 * bs.length + 16)) →
        (∀ ip len, ¬ len + 16 ≤ iplen → collect iplen (a :: as) ip len = collect iplen as ip len) →
        ∃ rest', collect iplen (a :: as) (bs.flatten ++ rest) (16 * bs.length) =
          .ok ((bs ++ wanted (a :: as) (rest.length / 16)).flatten ++ rest', 16 * (bs ++ wanted (a :: as) (rest.length / 16)).length) ∧
        Blocks (bs ++ wanted (a :: as) (rest.length / 16)) ∧ 16 * (bs ++ wanted (a :: as) (rest.length / 16)).length + rest'.length = iplen ∧
        (wanted (a :: as) (rest.length / 16) = [] → rest' = rest) := by
      intro b hb ha h1 h2
      by_cases hr : 16 ≤ rest.length
      · rw [h1 bs rest h hl hr]
        have hB : Blocks (bs ++ [b]) := by
          intro x hx
          rcases List.mem_append.1 hx with hx | hx
          · exact h x hx
          · rw [List.mem_singleton.1 hx]; exact hb
        obtain ⟨rest', e, hB', hl', hnil⟩ := ih hok' (bs ++ [b]) (rest.drop 16) hB (by simp; omega)
        have hw : wanted (a :: as) (rest.length / 16) = b :: wanted as ((rest.drop 16).length / 16) := by
          unfold wanted
          rw [List.filterMap_cons, ha]
          simp only []
          rw [List.length_drop, show rest.length / 16 = (rest.length - 16) / 16 + 1 by omega, List.take_succ_cons]
        rw [hw]
        refine ⟨rest', ?_, ?_, ?_, ?_⟩
        · simpa [Nat.mul_add, Nat.add_assoc] using e
        · simpa using hB'
        · simpa using hl'
        · intro hc; simp at hc
      · rw [h2 _ _ (by omega)]
        obtain ⟨rest', e, hB', hl', hnil⟩ := ih hok' bs rest h hl
        have e0 : rest.length / 16 = 0 := by omega
        have hw : wanted (a :: as) (rest.length / 16) = wanted as (rest.length / 16) := by
          rw [e0]; simp [wanted]
        rw [hw]
        exact ⟨rest', e, hB', hl', hnil⟩
    cases a with
    | v4 a =>
      have ha : a.length = 4 := hok (.v4 a) List.mem_cons_self
      refine step (v4prefix ++ a) (by simp [v4prefix, ha]) rfl ?_ ?_
      · intro bs rest h hl hr
        have hlen := h.length
        rw [collect, if_pos (by omega), copyN_full _ _ _ _ (by simp [v4prefix]) (by rw [List.length_append]; omega)]
        simp only []
        rw [copyN_full _ _ _ _ (by omega) (by
          rw [List.length_append, List.length_append, List.length_take, List.length_drop, List.length_append, List.length_take]
          simp only [v4prefix, List.length_cons, List.length_nil]; omega)]
        simp only []
        congr 1
        have e1 : v4prefix.take 12 = v4prefix := rfl
        rw [e1, ← hlen, List.take_left, List.drop_append, List.drop_eq_nil_of_le (by omega), List.nil_append]
        rw [show bs.flatten.length + 12 - bs.flatten.length = 12 by omega]
        rw [← List.append_assoc bs.flatten v4prefix, List.take_append, List.drop_append]
        have e2 : (bs.flatten ++ v4prefix).length = bs.flatten.length + 12 := by simp [v4prefix]
        rw [e2, Nat.sub_self, List.take_zero, List.append_nil, List.take_of_length_le (by omega),
          List.drop_eq_nil_of_le (by omega), List.nil_append, List.drop_drop, List.take_of_length_le (by omega)]
        rw [show 12 + (bs.flatten.length + 12 + 4 - (bs.flatten.length + 12)) = 16 by omega]
        simp
      · intro ip len hn
        rw [collect, if_neg hn]
    | v6 a =>
      have ha : a.length = 16 := hok (.v6 a) List.mem_cons_self
      refine step a ha rfl ?_ ?_
      · intro bs rest h hl hr
        have hlen := h.length
        rw [collect, if_pos (by omega), copyN_full _ _ _ _ (by omega) (by rw [List.length_append]; omega)]
        simp only []
        congr 1
        rw [← hlen, List.take_left, List.drop_append, List.drop_eq_nil_of_le (by omega), List.nil_append,
          List.take_of_length_le (by omega)]
        rw [show bs.flatten.length + 16 - bs.flatten.length = 16 by omega]
      · intro ip len hn
        rw [collect, if_neg hn]
    | other =>
      rw [collect]
      have hw : wanted (.other :: as) (rest.length / 16) = wanted as (rest.length / 16) := by
        unfold wanted; rw [List.filterMap_cons]; rfl
      rw [hw]
      exact ih hok' bs rest h hl

theorem refill_ok (len : Nat) (hpos : 0 < len) : ∀ k i (ip : Bytes), len + i + k ≤ ip.length →
    ∃ ip', refill len k i ip = .ok ip' ∧ ip'.length = ip.length ∧ (∀ j, j < len + i → ip'[j]? = ip[j]?) ∧
      (∀ j, i ≤ j → j < i + k → ip'[len + j]? = ip'[j]?) := by
  intro k
  induction k with
  | zero => intro i ip h; exact ⟨ip, rfl, rfl, fun _ _ => rfl, fun j h1 h2 => by omega⟩
  | succ k ih =>
    intro i ip h
    have hi : i < ip.length := by omega
    rw [refill, rd_lt _ _ hi, Out.ok_bind, wr_lt _ _ _ (by omega), Out.ok_bind]
    obtain ⟨ip', e, l, c1, c2⟩ := ih (i + 1) (ip.set (len + i) ip[i]) (by simp; omega)
    refine ⟨ip', e, by simpa using l, ?_, ?_⟩
    · intro j hj
      rw [c1 j (by omega), List.getElem?_set_ne (by omega)]
    · intro j h1 h2
      by_cases hji : j = i
      · subst hji
        rw [c1 (len + j) (by omega), List.getElem?_set_self (by omega), c1 j (by omega),
          List.getElem?_set_ne (by omega), List.getElem?_eq_getElem hi]
      · exact c2 j (by omega) (by omega)

end Resolve
