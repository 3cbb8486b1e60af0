import Verif.Resolve.Lemmas
/-
C32-C34: random selection, address ordering, resolver results.
-/
namespace Resolve

/-- `draws k` lists every string of `k` bytes exactly once. -/
theorem draws_spec (k : Nat) : (∀ r : Bytes, r ∈ draws k ↔ r.length = k) ∧ (draws k).Nodup := by
  constructor
  · intro r
    refine ⟨draws_length k r, ?_⟩
    intro h
    induction k generalizing r with
    | zero => rw [List.length_eq_zero_iff.1 h]; simp [draws]
    | succ k ih =>
      match r, h with
      | b :: r, h =>
        simp only [draws, List.mem_flatMap, List.mem_map]
        refine ⟨b.toNat, ?_, r, ih r (by simpa using h), by simp⟩
        exact List.mem_range.2 (UInt8.toNat_lt b)
  · have := draws_value k
    have hn : ((draws k).map value).Nodup := by rw [this]; exact List.nodup_range
    exact (List.pairwise_map.1 hn).imp (fun h e => h (congrArg value e))

/-- C32: for every bound up to 2^55 and all random bytes, the result is the number they write modulo `n` (0 for `n ≤ 1`). -/
theorem c32_value (n : Int) (hn : n ≤ 2 ^ 55) (r : Bytes) :
    randommod n r = .ok (if n ≤ 1 then 0 else value r % n.toNat) := by
  by_cases h : n ≤ 1
  · unfold randommod; rw [if_pos h, if_pos h]
  · have := randommod_ok n.toNat (by omega) r
    rw [show ((n.toNat : Nat) : Int) = n by omega] at this
    rw [this, if_neg (by omega), if_neg h]

/-- C32: the result is below `n`. -/
theorem c32_range (n : Int) (hn : n ≤ 2 ^ 55) (hp : 0 < n) (r : Bytes) : ∃ a : Nat, randommod n r = .ok a ∧ (a : Int) < n := by
  refine ⟨_, c32_value n hn r, ?_⟩
  split
  · omega
  · have := Nat.mod_lt (value r) (show 0 < n.toNat by omega)
    omega

/-- C32: over the 2^256 draws of 32 bytes, the numbers of draws yielding two values in range differ by at most one. -/
theorem c32_uniform (n a b : Nat) (hn : 0 < n) (hb : n ≤ 2 ^ 55) (ha : a < n) (hb' : b < n) :
    preimages n a ≤ preimages n b + 1 := by
  by_cases h1 : n ≤ 1
  · have : a = b := by omega
    subst this; omega
  · rw [preimages_eq n a (by omega) hb ha, preimages_eq n b (by omega) hb hb']
    split <;> split <;> omega

/-- C32: beyond the documented bound the arithmetic overflows for some draw. -/
theorem c32_large_bound : ∃ r : Bytes, r.length = 32 ∧ randommod (2 ^ 62) r = .ub :=
  ⟨List.replicate 32 255, by decide +kernel, by decide +kernel⟩

example : randommod 10 (List.replicate 31 0 ++ [7]) = .ok 7 := by decide +kernel
example : randommod 1000 (List.replicate 30 0 ++ [255, 255]) = .ok 535 := by decide +kernel

/-- C33: whatever the draws, sorting `m` addresses is defined and permutes them, leaves the rest of the buffer alone, and
puts a native IPv6 address first when there is one. -/
theorem c33_permutes (bs : List Bytes) (h : ∀ b ∈ bs, b.length = 16) (hb : bs.length ≤ 2 ^ 55) (rest : Bytes) (rnd : Nat → Bytes) :
    ∃ bs' : List Bytes, sortip (bs.flatten ++ rest) (16 * bs.length) rnd = .ok (bs'.flatten ++ rest) ∧ bs'.Perm bs ∧
      ((∃ b ∈ bs, isV6 b) → ∃ b, bs'[0]? = some b ∧ isV6 b) := by
  obtain ⟨b', h1, h2, _, h3⟩ := sortip_ok h rest hb rnd
  exact ⟨b', h1, h2, h3⟩

/-- C33: every order that has a native IPv6 address first, if there is one at all, is reached by some random draws. -/
theorem c33_reachable (bs t : List Bytes) (h : ∀ b ∈ bs, b.length = 16) (hb : bs.length ≤ 2 ^ 55) (rest : Bytes)
    (hp : t.Perm bs) (hv : (∃ b ∈ bs, isV6 b) → ∃ b, t[0]? = some b ∧ isV6 b) :
    ∃ rnd : Nat → Bytes, (∀ k, (rnd k).length = 32) ∧
      sortip (bs.flatten ++ rest) (16 * bs.length) rnd = .ok (t.flatten ++ rest) := by
  obtain ⟨rnd, hr, e⟩ := shuffle_reach rest bs.length bs t h (Nat.le_refl _) hb (by rw [List.take_length]; exact hp)
  refine ⟨rnd, hr, ?_⟩
  unfold sortip
  rw [show 16 * bs.length / 16 = bs.length by omega, e, Out.ok_bind, List.drop_length, List.append_nil]
  have ht : Blocks t := fun b hb => h b (hp.mem_iff.1 hb)
  obtain ⟨b2, e2, _, _, _, c1, c2⟩ := preferV6_ok ht rest bs.length 0 (by rw [hp.length_eq]; omega) (by omega)
    (fun j hj => absurd hj (by omega))
  rw [hp.length_eq] at e2
  rw [e2]
  by_cases hex : ∃ b ∈ bs, isV6 b
  · obtain ⟨b, hb1, hb2⟩ := hv hex
    rw [c1 (by intro x hx; rw [hb1] at hx; rw [← Option.some.inj hx]; exact hb2) rfl]
  · rw [c2 (by intro x hx hx2; exact hex ⟨x, hp.mem_iff.1 hx, hx2⟩)]

def a4 : Bytes := v4prefix ++ [10, 0, 0, 1]
def b4 : Bytes := v4prefix ++ [10, 0, 0, 2]
def c6 : Bytes := [0x20, 1, 0xd, 0xb8, 0, 0, 0, 0, 0, 0, 0, 0, 0, 0, 0, 1]

example : sortip ([a4, b4, c6].flatten ++ [9]) 48 (fun _ => List.replicate 31 0 ++ [1]) = .ok ([c6, a4, b4].flatten ++ [9]) := by
  decide +kernel
example : ([a4, b4, c6].map List.length) = [16, 16, 16] ∧ isV6 c6 ∧ ¬ isV6 a4 := by decide +kernel

/-- C34: the buffer receives exactly the first `iplen / 16` addresses the resolver returned, in some order (IPv6 first), never
a byte outside it; the rest of the buffer repeats them, and without addresses the buffer is untouched and 0 is returned. -/
theorem c34_resolve (ip : Bytes) (as : List Answer) (hok : ∀ a ∈ as, a.Ok) (h16 : 16 ≤ ip.length) (hb : ip.length ≤ 2 ^ 59)
    (rnd : Nat → Bytes) :
    ∃ (bs : List Bytes) (ip' : Bytes),
      resolvehost ip ip.length (.list as) rnd = .ok (16 * bs.length, ip') ∧
      bs.Perm (wanted as (ip.length / 16)) ∧ ip'.length = ip.length ∧ ip'.take (16 * bs.length) = bs.flatten ∧
      ((∃ b ∈ bs, isV6 b) → ∃ b, bs[0]? = some b ∧ isV6 b) ∧
      (bs = [] → ip' = ip) ∧
      (bs ≠ [] → ∀ k, 16 * bs.length ≤ k → k < ip.length → ip'[k]? = ip'[k - 16 * bs.length]?) := by
  obtain ⟨rest, e, hB, hl, hnil⟩ := collect_ok ip.length as hok [] ip (fun _ h => absurd h (by simp)) (by simp)
  simp only [List.flatten_nil, List.nil_append, List.length_nil, Nat.mul_zero] at e hB hl
  unfold resolvehost
  rw [if_neg (by omega)]
  simp only [Int.toNat_natCast]
  rw [e, Out.ok_bind]
  simp only []
  generalize hw : wanted as (ip.length / 16) = w at *
  by_cases hlen : w = []
  · subst hlen
    refine ⟨[], ip, ?_, .refl _, rfl, rfl, by simp, fun _ => rfl, fun h => absurd rfl h⟩
    rw [hnil rfl]
    rfl
  · have hpos : 0 < w.length := List.length_pos_iff.2 hlen
    rw [if_pos (show 16 * w.length > 0 by omega)]
    obtain ⟨bs, e2, p, hB2, hv⟩ := sortip_ok hB rest (by omega) rnd
    rw [e2, Out.ok_bind]
    have hbl := Blocks.length hB2
    have hpl := p.length_eq
    obtain ⟨ip', e3, l3, c1, c2⟩ := refill_ok (16 * w.length) (by omega) (ip.length - 16 * w.length) 0 (bs.flatten ++ rest)
      (by rw [List.length_append]; omega)
    rw [e3, Out.ok_bind]
    have hl3 : ip'.length = ip.length := by rw [l3, List.length_append]; omega
    refine ⟨bs, ip', by simp [hpl], p, hl3, ?_, ?_, ?_, ?_⟩
    · apply List.ext_getElem?
      intro i
      by_cases hi : i < 16 * bs.length
      · rw [List.getElem?_take_of_lt hi, c1 i (by omega), List.getElem?_append_left (by omega)]
      · rw [List.getElem?_eq_none (by rw [List.length_take]; omega), List.getElem?_eq_none (by omega)]
    · rintro ⟨b, hb1, hb2⟩; exact hv ⟨b, p.mem_iff.1 hb1, hb2⟩
    · intro hbn; subst hbn; simp at hpl; omega
    · intro _ k hk1 hk2
      have := c2 (k - 16 * bs.length) (by omega) (by omega)
      rw [← this]
      congr 1; omega

/-- C34: a failed lookup or a buffer too small for one address leaves the buffer alone; the value is 0 exactly when the resolver
said that the name has no data, -1 otherwise. -/
theorem c34_failure (ip : Bytes) (iplen : Int) (gai : Gai) (rnd : Nat → Bytes)
    (h : iplen < 16 ∨ ∃ nd, gai = .fail nd) :
    ∃ r, resolvehost ip iplen gai rnd = .ok (r, ip) ∧ (r = -1 ∨ r = 0) ∧ (r = 0 ↔ 16 ≤ iplen ∧ gai = .fail true) := by
  unfold resolvehost
  by_cases h1 : iplen < 16
  · rw [if_pos h1]; exact ⟨-1, rfl, .inl rfl, by omega⟩
  · rw [if_neg h1]
    obtain ⟨nd, rfl⟩ := h.resolve_left h1
    cases nd
    · exact ⟨-1, rfl, .inl rfl, by simp⟩
    · exact ⟨0, rfl, .inr rfl, fun _ => ⟨by omega, rfl⟩, fun _ => rfl⟩

example : resolvehost [7] 1 (.list []) (fun _ => []) = .ok (-1, [7]) ∧
    resolvehost (List.replicate 16 7) 16 (.fail true) (fun _ => []) = .ok (0, List.replicate 16 7) := by decide +kernel

/-- C34: the request carries exactly the host name; names of more than 255 bytes are refused without a request. -/
theorem c34_request (host tail : Bytes) (hn : NoNul host) :
    request (cstr host tail) = .ok (if host.length > 255 then none else some (host ++ List.replicate (256 - host.length) 0)) := by
  unfold request
  rw [cstrOf_cstr host tail hn, Out.ok_bind]
  by_cases h : host.length > 255
  · rw [if_pos h, if_pos h]; rfl
  · rw [if_neg h, if_neg h, copyN_full _ _ _ _ (by simp [cstr]) (by rw [List.length_replicate]; omega), Out.ok_bind]
    simp only [List.take_zero, List.nil_append, List.drop_replicate, Nat.zero_add, cstr, List.take_left, Out.pure_eq]

/-- The helper looks up exactly the host name of the request. -/
theorem helperReply_eq (host buf0 ip0 : Bytes) (hn : NoNul host) (hh : host.length ≤ 255) (hb : buf0.length = 257)
    (gai : Bytes → Gai) (rnd : Nat → Bytes) :
    helperReply buf0 ip0 (host ++ List.replicate (256 - host.length) 0) gai rnd = (do
      let (r, ip) ← resolvehost (ip0.drop 1) 128 (gai host) rnd
      if r < 0 then return [255] else return UInt8.ofNat r.toNat :: ip.take r.toNat) := by
  unfold helperReply
  have hm : (host ++ List.replicate (256 - host.length) 0 : Bytes).length = 256 := by simp; omega
  rw [copyN_full _ _ _ _ (Nat.le_refl _) (by omega), Out.ok_bind, List.take_length, hm, List.take_zero, List.nil_append]
  rw [wr_lt _ _ _ (by simp; omega), Out.ok_bind]
  have hset : ((host ++ List.replicate (256 - host.length) (0 : Byte)) ++ buf0.drop (0 + 256)).set 255 0 =
      cstr host (List.replicate (255 - host.length) 0 ++ buf0.drop 256) := by
    rw [show 256 - host.length = (255 - host.length) + 1 by omega, List.replicate_succ, cstr]
    rw [List.append_assoc, List.set_append_right _ _ (by omega), Nat.zero_add]
    congr 1
    rw [← List.replicate_succ, ← List.cons_append, ← List.replicate_succ]
    rw [List.set_append_left _ _ (by simp)]
    congr 1
    apply List.ext_getElem?
    intro i
    rw [List.getElem?_set]
    by_cases hi : 255 - host.length = i
    · subst hi; rw [if_pos rfl]; simp
    · rw [if_neg hi]
  rw [hset, cstrOf_cstr host _ hn, Out.ok_bind]

/-- The helper's view of a request is the host name, and its reply is a status byte and the addresses. -/
theorem c34_helper (host buf0 ip0 : Bytes) (hn : NoNul host) (hh : host.length ≤ 255) (hb : buf0.length = 257) (hi : ip0.length = 129)
    (gai : Bytes → Gai) (as : List Answer) (hg : gai host = .list as) (hok : ∀ a ∈ as, a.Ok) (rnd : Nat → Bytes) :
    ∃ bs : List Bytes, helperReply buf0 ip0 (host ++ List.replicate (256 - host.length) 0) gai rnd =
        .ok (UInt8.ofNat (16 * bs.length) :: bs.flatten) ∧ bs.Perm (wanted as 8) ∧
        ((∃ b ∈ bs, isV6 b) → ∃ b, bs[0]? = some b ∧ isV6 b) := by
  rw [helperReply_eq host buf0 ip0 hn hh hb, hg]
  have hd : (ip0.drop 1).length = 128 := by simp [hi]
  obtain ⟨bs, ip', e, p, l, t, v, _, _⟩ := c34_resolve (ip0.drop 1) as hok (by omega) (by rw [hd]; decide) rnd
  rw [hd] at e p
  have e' : resolvehost (ip0.drop 1) 128 (.list as) rnd = .ok (16 * bs.length, ip') := e
  rw [e', Out.ok_bind]
  simp only []
  rw [if_neg (by omega)]
  have : ((16 * (bs.length : Int)).toNat) = 16 * bs.length := by omega
  refine ⟨bs, ?_, p, v⟩
  rw [this, t]
  rfl

/-- C34, through the helper process: the caller receives the addresses the resolver returned (at most 8, and at most what fits),
IPv6 first. -/
theorem c34_end_to_end (ip host tail buf0 ip0 : Bytes) (hn : NoNul host) (hh : host.length ≤ 255) (hb : buf0.length = 257)
    (hi : ip0.length = 129) (gai : Bytes → Gai) (as : List Answer) (hg : gai host = .list as) (hok : ∀ a ∈ as, a.Ok)
    (rnd : Nat → Bytes) (h16 : 16 ≤ ip.length) :
    ∃ (bs : List Bytes) (ip' : Bytes),
      resolvehostDo ip ip.length (cstr host tail) (fun msg => do return some (← helperReply buf0 ip0 msg gai rnd)) =
        .ok ((min (16 * bs.length) ip.length : Nat), ip') ∧
      bs.Perm (wanted as 8) ∧ ((∃ b ∈ bs, isV6 b) → ∃ b, bs[0]? = some b ∧ isV6 b) ∧
      ip'.length = ip.length ∧ ip'.take (min (16 * bs.length) ip.length) = bs.flatten.take ip.length := by
  obtain ⟨bs, e, p, v⟩ := c34_helper host buf0 ip0 hn hh hb hi gai as hg hok rnd
  have hB : Blocks bs := by
    intro b hb
    have : b ∈ as.filterMap Answer.addr := List.mem_of_mem_take (p.mem_iff.1 hb)
    obtain ⟨a, ha, e⟩ := List.mem_filterMap.1 this
    have hk := hok a ha
    cases a with
    | v4 x =>
      simp only [Answer.addr, Option.some.injEq] at e
      subst e
      simp only [Answer.Ok] at hk
      simp [v4prefix, hk]
    | v6 x =>
      simp only [Answer.addr, Option.some.injEq] at e
      subst e
      exact hk
    | other => simp [Answer.addr] at e
  have hl := hB.length
  unfold resolvehostDo
  rw [if_neg (by omega), c34_request host tail hn, if_neg (by omega), Out.ok_bind]
  simp only []
  rw [e]
  simp only [Out.ok_bind, Out.pure_eq, Int.toNat_natCast]
  cases hbs : bs with
  | nil =>
    subst hbs
    refine ⟨[], ip, ?_, p, v, rfl, by simp⟩
    simp [answer]
  | cons b bs' =>
    rw [← hbs]
    have hne : bs.length ≠ 0 := by rw [hbs]; simp
    obtain ⟨x, xs, hx⟩ : ∃ x xs, bs.flatten = x :: xs := by
      match hf : bs.flatten with
      | [] => rw [hf] at hl; simp at hl; omega
      | x :: xs => exact ⟨x, xs, rfl⟩
    have ha : answer ip ip.length (some (UInt8.ofNat (16 * bs.length) :: bs.flatten)) = (do
        let ip' ← copyN ip 0 bs.flatten (min bs.flatten.length ip.length)
        return (((min bs.flatten.length ip.length : Nat) : Int), ip')) := by
      rw [hx]; rfl
    rw [ha, copyN_full _ _ _ _ (by omega) (by omega), Out.ok_bind, hl]
    refine ⟨bs, _, rfl, p, v, ?_, ?_⟩
    · simp only [List.take_zero, List.nil_append, List.length_append, List.length_take, List.length_drop, hl]; omega
    · rw [List.take_zero, List.nil_append, List.take_append]
      have : (List.take (min (16 * bs.length) ip.length) bs.flatten).length = min (16 * bs.length) ip.length := by
        rw [List.length_take, hl]; omega
      rw [this, Nat.sub_self, List.take_zero, List.append_nil, List.take_take, Nat.min_self]
      by_cases hle : 16 * bs.length ≤ ip.length
      · rw [Nat.min_eq_left hle, List.take_of_length_le (by omega), List.take_of_length_le (by omega)]
      · rw [Nat.min_eq_right (by omega)]

/-- C34, through the helper process: the caller is told apart a name without data (0) and a failed lookup (-1), and its buffer is
left alone. -/
theorem c34_end_to_end_failure (ip host tail buf0 ip0 : Bytes) (hn : NoNul host) (hh : host.length ≤ 255) (hb : buf0.length = 257)
    (gai : Bytes → Gai) (nd : Bool) (hg : gai host = .fail nd) (rnd : Nat → Bytes) (h16 : 16 ≤ ip.length) :
    resolvehostDo ip ip.length (cstr host tail) (fun msg => do return some (← helperReply buf0 ip0 msg gai rnd)) =
      .ok (if nd then 0 else -1, ip) := by
  unfold resolvehostDo
  rw [if_neg (by omega), c34_request host tail hn, if_neg (by omega), Out.ok_bind]
  simp only []
  rw [helperReply_eq host buf0 ip0 hn hh hb, hg]
  cases nd <;> rfl

/-- C34: a host name of more than 255 bytes fails without a lookup. -/
theorem c34_long_name (ip host tail : Bytes) (iplen : Int) (hn : NoNul host) (hh : 255 < host.length) (io : Bytes → Out (Option Bytes)) :
    resolvehostDo ip iplen (cstr host tail) io = .ok (-1, ip) := by
  unfold resolvehostDo
  by_cases h : iplen < 16
  · rw [if_pos h]
  · rw [if_neg h, c34_request host tail hn, if_pos hh, Out.ok_bind]; rfl

example : resolvehostDo (List.replicate 16 9) 16 (cstr b!"a.example" [])
    (fun msg => do return some (← helperReply (List.replicate 257 1) (List.replicate 129 2) msg (fun _ => .fail false) (fun _ => []))) =
    .ok (-1, List.replicate 16 9) := by decide +kernel

/-- C34: whatever datagram comes back, at most `iplen` bytes of it are copied and the count is returned. -/
theorem c34_reply_in_bounds (ip : Bytes) (reply : Option Bytes) :
    ∃ r ip', answer ip ip.length reply = .ok (r, ip') ∧ ip'.length = ip.length ∧ (r = -1 ∨ (0 ≤ r ∧ (r ≤ ip.length ∨ r < 255))) := by
  match reply with
  | none => exact ⟨-1, ip, rfl, rfl, .inl rfl⟩
  | some [] => exact ⟨-1, ip, rfl, rfl, .inl rfl⟩
  | some [b] =>
    refine ⟨_, ip, rfl, rfl, ?_⟩
    split
    · exact .inl rfl
    · rename_i hb
      right
      refine ⟨by omega, .inr ?_⟩
      have : b.toNat < 256 := UInt8.toNat_lt b
      have : b.toNat ≠ 255 := fun h => hb (UInt8.toNat_inj.1 h)
      omega
  | some (x :: y :: m) =>
    unfold answer
    simp only []
    rw [copyN_full _ _ _ _ (by omega) (by omega), Out.ok_bind]
    refine ⟨_, _, rfl, ?_, .inr ⟨by omega, .inl (by omega)⟩⟩
    simp only [List.take_zero, List.nil_append, List.length_append, List.length_take, List.length_drop]; omega

/-- The end-to-end hypotheses are met, with the result computed. -/
example : resolvehostDo (List.replicate 40 9) 40 (cstr b!"a.example" [])
    (fun msg => do return some (← helperReply (List.replicate 257 1) (List.replicate 129 2) msg
      (fun h => if h = b!"a.example" then .list [.v4 [10, 0, 0, 1], .other, .v6 c6] else .fail true) (fun _ => List.replicate 32 1))) =
    .ok (32, c6 ++ a4 ++ List.replicate 8 9) := by decide +kernel

end Resolve
