import Verif.Conf.Model
import Verif.Conf.Spec
import Verif.Str.Props
import Verif.Num.Props
/-
Lemmas about the tables, the add functions and the option loop.
-/
namespace Conf
open Spec

/-! ### Names -/

theorem str_equal_ok (x n : Bytes) (hx : NoNul x) (hn : NoNul n) : str_equal (x ++ [0]) n = .ok (decide (x = n)) := by
  have := Str.c27_diff x n [] [] hx hn
  simp only [cstr] at this
  simp [str_equal, this.1, this.2]

theorem lookup_ok {α} (nameOf : α → Bytes) (x : Bytes) (hx : NoNul x) (t : List α) (ht : ∀ e ∈ t, NoNul (nameOf e)) :
    lookup nameOf (x ++ [0]) t = .ok (t.find? (fun e => decide (x = nameOf e))) := by
  induction t with
  | nil => rfl
  | cons e t ih =>
    rw [lookup, str_equal_ok x _ hx (ht e (by simp)), List.find?_cons]
    by_cases h : x = nameOf e
    · simp [h]
    · simp [h, ih (fun e he => ht e (by simp [he]))]

theorem versions_ok (x : Bytes) (hx : NoNul x) :
    lookup (·.1) (x ++ [0]) tls_versions = .ok (tls_versions.find? (fun e => decide (x = e.1))) :=
  lookup_ok _ x hx _ (by decide +kernel)

theorem versions_find (x : Bytes) :
    (tls_versions.find? (fun e => decide (x = e.1))).map (·.2.1) = version x := by
  simp only [tls_versions, version, List.find?_cons, List.find?_nil]
  repeat' split
  all_goals simp_all

theorem setmin_ok (c : Ctx) (x : Bytes) (hx : NoNul x) : tls_version_setmin c (x ++ [0]) = .ok
    (match version x with
     | some v => (true, { c with version_min := v })
     | none => (false, c)) := by
  rw [tls_version_setmin, versions_ok x hx, ← versions_find x]
  cases tls_versions.find? (fun e => decide (x = e.1)) <;> rfl

theorem setmax_ok (c : Ctx) (x : Bytes) (hx : NoNul x) : tls_version_setmax c (x ++ [0]) = .ok
    (match version x with
     | some v => (true, { c with version_max := v })
     | none => (false, c)) := by
  rw [tls_version_setmax, versions_ok x hx, ← versions_find x]
  cases tls_versions.find? (fun e => decide (x = e.1)) <;> rfl

theorem curves_find (x448 : Bool) (x : Bytes) :
    ((tls_ecdhes x448).find? (fun e => decide (x = e.1))).map (·.2) = curve x448 x := by
  cases x448
  · simp only [tls_ecdhes, curve, Bool.false_eq_true, if_false, List.append_nil, List.find?_cons, List.find?_nil, false_and]
    repeat' split
    all_goals simp_all
  · simp only [tls_ecdhes, curve, if_true, List.cons_append, List.nil_append, List.find?_cons, List.find?_nil, true_and]
    repeat' split
    all_goals simp_all

theorem ecdhe_add_ok (x448 : Bool) (c : Ctx) (x : Bytes) (hx : NoNul x) : tls_ecdhe_add x448 c (x ++ [0]) = .ok
    (let c := if c.ecdhe_default then { c with ecdhe_enabled := 0, ecdhe_default := false } else c
     match curve x448 x with
     | some v => (true, { c with ecdhe_enabled := c.ecdhe_enabled ||| (1 <<< v) })
     | none => (false, c)) := by
  rw [tls_ecdhe_add, lookup_ok _ x hx _ (by cases x448 <;> decide +kernel), ← curves_find x448 x]
  cases (tls_ecdhes x448).find? (fun e => decide (x = e.1)) <;> rfl

theorem ciphers_find (x : Bytes) :
    (tls_ciphers.find? (fun e => decide (x = e.name))).map (fun e => (e.ecsuite, e.rsasuite)) = cipher x := by
  simp only [tls_ciphers, cipher, List.find?_cons, List.find?_nil]
  repeat' split
  all_goals simp_all

/-- tls_cipher_add in terms of the specification's table. -/
theorem cipher_add_eq (c : Ctx) (x : Bytes) (hx : NoNul x) : tls_cipher_add c (x ++ [0]) =
    (let c := if c.cipher_default then { c with cipher_enabled := [], cipher_default := false } else c
     match cipher x with
     | some (e, r) =>
       if c.cipher_enabled.any (fun s => s == e || s == r) = false then
         if c.cipher_enabled.length + 2 ≤ 16 then .ok (true, { c with cipher_enabled := c.cipher_enabled ++ [e, r] })
         else .ok (false, c)
       else .ok (true, c)
     | none => .ok (false, c)) := by
  rw [tls_cipher_add, lookup_ok _ x hx _ (by decide +kernel), ← ciphers_find x]
  cases hf : tls_ciphers.find? (fun e => decide (x = e.name)) with
  | none => rfl
  | some e =>
    simp only [Out.ok_bind, Option.map_some]
    generalize hd : (if c.cipher_default = true then { c with cipher_enabled := [], cipher_default := false } else c) = d
    by_cases h1 : d.cipher_enabled.any (fun s => s == e.ecsuite || s == e.rsasuite) = false
    · simp only [h1, if_true]
      by_cases h2 : d.cipher_enabled.length + 2 ≤ 16
      · rw [if_neg (by simp [CIPHERS]; omega), if_pos h2]
        rw [push, if_pos (by simp [CIPHERS]; omega)]
        simp only [Out.ok_bind]
        rw [push, if_pos (by simp [CIPHERS]; omega)]
        simp
      · rw [if_pos (by simp [CIPHERS]; omega), if_neg h2]; rfl
    · simp only [h1]; rfl

/-- The table of the specification as a list. -/
def cipherList : List (Bytes × Nat × Nat) := tls_ciphers.map (fun e => (e.name, e.ecsuite, e.rsasuite))

theorem cipher_mem (x : Bytes) (p : Nat × Nat) (h : cipher x = some p) : (x, p) ∈ cipherList := by
  rw [← ciphers_find x, Option.map_eq_some_iff] at h
  obtain ⟨e, h1, rfl⟩ := h
  have h2 := List.find?_some h1
  have h3 := List.mem_of_find?_eq_some h1
  simp only [decide_eq_true_eq] at h2
  subst h2
  exact List.mem_map.mpr ⟨e, h3, rfl⟩

theorem cipherList_inj : ∀ a ∈ cipherList, ∀ b ∈ cipherList,
    (a.2.1 = b.2.1 ∨ a.2.1 = b.2.2 ∨ a.2.2 = b.2.1 ∨ a.2.2 = b.2.2) → a = b := by decide +kernel

theorem cipher_inj {x y : Bytes} {e r e' r' : Nat} (hx : cipher x = some (e, r)) (hy : cipher y = some (e', r'))
    (h : e = e' ∨ e = r' ∨ r = e' ∨ r = r') : x = y := by
  have := cipherList_inj _ (cipher_mem x _ hx) _ (cipher_mem y _ hy) h
  exact congrArg (·.1) this

/-! ### First appearances -/

theorem mem_firsts (l : List Bytes) (x : Bytes) : x ∈ firsts l ↔ x ∈ l := by
  induction l with
  | nil => simp [firsts]
  | cons a l ih =>
    simp only [firsts, List.mem_cons, List.mem_filter, ih, ne_eq, decide_eq_true_eq, decide_not, Bool.not_eq_true',
      decide_eq_false_iff_not]
    by_cases h : x = a <;> simp [h]

theorem firsts_snoc (l : List Bytes) (x : Bytes) : firsts (l ++ [x]) = if x ∈ l then firsts l else firsts l ++ [x] := by
  induction l with
  | nil => simp [firsts]
  | cons a l ih =>
    simp only [List.cons_append, firsts, ih, List.mem_cons]
    by_cases h1 : x ∈ l
    · simp [h1]
    · by_cases h2 : x = a
      · subst h2; simp [h1, List.filter_append]
      · simp [h1, h2, List.filter_append]

theorem firsts_nodup (l : List Bytes) : (firsts l).Nodup := by
  induction l with
  | nil => simp [firsts]
  | cons a l ih =>
    simp only [firsts, List.nodup_cons, List.mem_filter]
    exact ⟨by simp, ih.filter _⟩

theorem nodup_length {α} [DecidableEq α] (l t : List α) (hn : l.Nodup) (hs : ∀ x ∈ l, x ∈ t) : l.length ≤ t.length := by
  induction l generalizing t with
  | nil => simp
  | cons a l ih =>
    simp only [List.nodup_cons] at hn
    have ha : a ∈ t := hs a (by simp)
    have := ih (t.erase a) hn.2 (fun x hx => (List.mem_erase_of_ne (by rintro rfl; exact hn.1 hx)).mpr (hs x (by simp [hx])))
    rw [List.length_erase_of_mem ha] at this
    have : 0 < t.length := List.length_pos_of_mem ha
    simp only [List.length_cons]
    omega

/-- Both variants of a name. -/
def pair (x : Bytes) : List Nat := match cipher x with
  | some (e, r) => [e, r]
  | none => []

theorem suites_eq (l : List Bytes) : suites l = (firsts l).flatMap pair := rfl

theorem suites_snoc (l : List Bytes) (x : Bytes) : suites (l ++ [x]) = if x ∈ l then suites l else suites l ++ pair x := by
  simp only [suites_eq, firsts_snoc]
  split <;> simp

theorem pair_length (x : Bytes) : (pair x).length ≤ 2 := by
  unfold pair; split <;> simp

theorem flatMap_length_le (l : List Bytes) : (l.flatMap pair).length ≤ 2 * l.length := by
  induction l with
  | nil => simp
  | cons a l ih =>
    simp only [List.flatMap_cons, List.length_append, List.length_cons]
    have := pair_length a
    omega

theorem suites_length (l : List Bytes) (h : ∀ x ∈ l, (cipher x).isSome) : (firsts l).length ≤ 7 := by
  refine nodup_length _ (cipherList.map (·.1)) (firsts_nodup l) (fun x hx => ?_)
  obtain ⟨p, hp⟩ := Option.isSome_iff_exists.mp (h x ((mem_firsts l x).mp hx))
  exact List.mem_map.mpr ⟨_, cipher_mem x p hp, rfl⟩

/-- A suite of `x` is enabled exactly if `x` was named. -/
theorem suites_any (l : List Bytes) (x : Bytes) (e r : Nat) (hx : cipher x = some (e, r)) :
    (suites l).any (fun s => s == e || s == r) = decide (x ∈ l) := by
  rw [Bool.eq_iff_iff, List.any_eq_true, decide_eq_true_iff]
  constructor
  · rintro ⟨s, hs, h⟩
    rw [suites_eq, List.mem_flatMap] at hs
    obtain ⟨y, hy, hs⟩ := hs
    unfold pair at hs
    split at hs
    · rename_i e' r' hc
      have : x = y := cipher_inj hx hc (by
        simp only [List.mem_cons, List.not_mem_nil, or_false] at hs
        simp only [Bool.or_eq_true, beq_iff_eq] at h
        omega)
      subst this
      exact (mem_firsts l x).mp hy
    · simp at hs
  · intro h
    refine ⟨e, ?_, by simp⟩
    rw [suites_eq, List.mem_flatMap]
    exact ⟨x, (mem_firsts l x).mpr h, by simp [pair, hx]⟩

end Conf
