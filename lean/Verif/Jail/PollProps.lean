import Verif.Jail.Poll
namespace JailPoll

/-- What the kernel is asked: exactly about the descriptors and directions of the entries (negative descriptors are skipped), for exactly
`millisecs`. -/
structure Asks (x : List Entry) (millisecs : Int) (q : Query) : Prop where
  rlen : q.r.length = setSize
  wlen : q.w.length = setSize
  rset : ∀ fd : Nat, q.r[fd]? = some true ↔ ∃ e ∈ x, e.fd = fd ∧ e.wantIn = true
  wset : ∀ fd : Nat, q.w[fd]? = some true ↔ ∃ e ∈ x, e.fd = fd ∧ e.wantOut = true
  nfds : q.nfds ≤ setSize ∧ ∀ e ∈ x, e.fd < q.nfds
  forever : millisecs < 0 → q.timeout = none
  timed : 0 ≤ millisecs → ∃ t, q.timeout = some t ∧ t.sec * 1000000 + t.usec = millisecs * 1000 ∧ 0 ≤ t.usec ∧ t.usec < 1000000

/-- The entry with nothing reported. -/
def clear (e : Entry) : Entry := { e with gotIn := false, gotOut := false }

/-- The entry with the events asked for that the kernel found ready. -/
def report (a : Answer) (e : Entry) : Entry :=
  { e with gotIn := decide (0 ≤ e.fd) && e.wantIn && a.r[e.fd.toNat]?.getD false
           gotOut := decide (0 ≤ e.fd) && e.wantOut && a.w[e.fd.toNat]?.getD false }

/-- The number of events reported. -/
def flags (l : List Entry) : Nat := (l.map (fun e => (if e.gotIn then 1 else 0) + (if e.gotOut then 1 else 0))).sum

theorem fdSet_getElem {s s' : Set} {fd : Nat} (h : fdSet s fd = .ok s') (i : Nat) :
    s'.length = s.length ∧ (s'[i]? = some true ↔ i = fd ∨ s[i]? = some true) := by
  unfold fdSet at h
  split at h
  · rename_i hl
    cases h
    refine ⟨by simp, ?_⟩
    rw [List.getElem?_set]
    by_cases hi : fd = i
    · subst hi; simp [hl]
    · rw [if_neg hi]; simp [Ne.symm hi]
  · cases h

/-- Adding a descriptor to a set, or not. -/
theorem add_ok (s : Set) (hs : s.length = setSize) (b : Bool) (fd : Nat) (hf : fd < setSize) :
    ∃ s', fdSetIf b s fd = .ok s' ∧ s'.length = setSize ∧
      ∀ i, s'[i]? = some true ↔ (b = true ∧ i = fd) ∨ s[i]? = some true := by
  cases b with
  | false => exact ⟨s, rfl, hs, fun i => by simp⟩
  | true =>
    have : fdSet s fd = .ok (s.set fd true) := by unfold fdSet; rw [if_pos (by omega)]
    refine ⟨_, by rw [fdSetIf, if_pos rfl]; exact this, by simp [hs], fun i => ?_⟩
    rw [(fdSet_getElem this i).2]; simp

theorem prepare_ok : ∀ (x : List Entry) (n : Nat) (r w : Set), 1 ≤ n → n ≤ setSize → r.length = setSize → w.length = setSize →
    (∀ e ∈ x, e.fd < setSize) →
    ∃ n' r' w', prepare x n r w = .ok (some (n', r', w')) ∧ n ≤ n' ∧ n' ≤ setSize ∧ (∀ e ∈ x, e.fd < n') ∧
      r'.length = setSize ∧ w'.length = setSize ∧
      (∀ i : Nat, r'[i]? = some true ↔ (∃ e ∈ x, e.fd = i ∧ e.wantIn = true) ∨ r[i]? = some true) ∧
      (∀ i : Nat, w'[i]? = some true ↔ (∃ e ∈ x, e.fd = i ∧ e.wantOut = true) ∨ w[i]? = some true) := by
  intro x
  induction x with
  | nil => intro n r w h1 h2 h3 h4 _; exact ⟨n, r, w, rfl, Nat.le_refl _, h2, by simp, h3, h4, by simp, by simp⟩
  | cons e x ih =>
    intro n r w h1 h2 h3 h4 hx
    have he := hx e List.mem_cons_self
    have hx' : ∀ e ∈ x, e.fd < setSize := fun e h => hx e (List.mem_cons_of_mem _ h)
    by_cases hn : e.fd < 0
    · obtain ⟨n', r', w', a1, a2, a3, a4, a5, a6, a7, a8⟩ := ih n r w h1 h2 h3 h4 hx'
      refine ⟨n', r', w', by rw [prepare, if_pos hn]; exact a1, a2, a3, ?_, a5, a6, ?_, ?_⟩
      · exact List.forall_mem_cons.2 ⟨by omega, a4⟩
      · intro i; rw [a7 i]; simp only [List.mem_cons, exists_eq_or_imp, or_assoc]
        constructor
        · exact .inr
        · rintro (⟨h, _⟩ | h)
          · omega
          · exact h
      · intro i; rw [a8 i]; simp only [List.mem_cons, exists_eq_or_imp, or_assoc]
        constructor
        · exact .inr
        · rintro (⟨h, _⟩ | h)
          · omega
          · exact h
    · obtain ⟨r1, b1, b2, b3⟩ := add_ok r h3 e.wantIn e.fd.toNat (by omega)
      obtain ⟨w1, c1, c2, c3⟩ := add_ok w h4 e.wantOut e.fd.toNat (by omega)
      have hn' : (if e.fd.toNat ≥ n then e.fd.toNat + 1 else n) ≤ setSize := by split <;> omega
      obtain ⟨n', r', w', a1, a2, a3, a4, a5, a6, a7, a8⟩ := ih (if e.fd.toNat ≥ n then e.fd.toNat + 1 else n) r1 w1 (by split <;> omega) hn' b2 c2 hx'
      refine ⟨n', r', w', ?_, ?_, a3, ?_, a5, a6, ?_, ?_⟩
      · rw [prepare, if_neg hn, if_neg (by omega)]
        simp only []
        rw [b1, Out.ok_bind, c1, Out.ok_bind]
        exact a1
      · revert a2; split <;> omega
      · refine List.forall_mem_cons.2 ⟨?_, a4⟩
        revert a2; split <;> omega
      · intro i; rw [a7 i, b3 i]; simp only [List.mem_cons, exists_eq_or_imp]
        constructor
        · rintro (h | ⟨h, rfl⟩ | h)
          · exact .inl (.inr h)
          · exact .inl (.inl ⟨by omega, h⟩)
          · exact .inr h
        · rintro ((⟨h, h'⟩ | h) | h)
          · exact .inr (.inl ⟨h', by omega⟩)
          · exact .inl h
          · exact .inr (.inr h)
      · intro i; rw [a8 i, c3 i]; simp only [List.mem_cons, exists_eq_or_imp]
        constructor
        · rintro (h | ⟨h, rfl⟩ | h)
          · exact .inl (.inr h)
          · exact .inl (.inl ⟨by omega, h⟩)
          · exact .inr h
        · rintro ((⟨h, h'⟩ | h) | h)
          · exact .inr (.inl ⟨h', by omega⟩)
          · exact .inl h
          · exact .inr (.inr h)

theorem prepare_refused : ∀ (x : List Entry) (n : Nat) (r w : Set), r.length = setSize → w.length = setSize →
    (∃ e ∈ x, (setSize : Int) ≤ e.fd) → prepare x n r w = .ok none := by
  intro x
  induction x with
  | nil => intro n r w _ _ ⟨e, h, _⟩; cases h
  | cons e x ih =>
    intro n r w hr hw hx
    rw [prepare]
    by_cases hn : e.fd < 0
    · rw [if_pos hn]
      refine ih n r w hr hw ?_
      obtain ⟨e', h1, h2⟩ := hx
      rcases List.mem_cons.1 h1 with rfl | h1
      · omega
      · exact ⟨e', h1, h2⟩
    · rw [if_neg hn]
      by_cases hb : e.fd ≥ setSize
      · rw [if_pos hb]
      · rw [if_neg hb]
        obtain ⟨r1, b1, b2, _⟩ := add_ok r hr e.wantIn e.fd.toNat (by omega)
        obtain ⟨w1, c1, c2, _⟩ := add_ok w hw e.wantOut e.fd.toNat (by omega)
        simp only []
        rw [b1, Out.ok_bind, c1, Out.ok_bind]
        refine ih _ r1 w1 b2 c2 ?_
        obtain ⟨e', h1, h2⟩ := hx
        rcases List.mem_cons.1 h1 with rfl | h1
        · omega
        · exact ⟨e', h1, h2⟩

theorem isset_ok (s : Set) (hs : s.length = setSize) (b : Bool) (fd : Nat) (hf : fd < setSize) :
    fdIssetIf b s fd = .ok (b && s[fd]?.getD false) := by
  cases b with
  | false => rfl
  | true =>
    have : s[fd]? = some s[fd] := List.getElem?_eq_getElem (by omega)
    simp [fdIssetIf, fdIsset, this]

theorem collect_ok (a : Answer) (hr : a.r.length = setSize) (hw : a.w.length = setSize) : ∀ (x : List Entry) (n : Int),
    (∀ e ∈ x, e.fd < setSize) → (∀ e ∈ x, clear e = e) → collect a x n = .ok (n + flags (x.map (report a)), x.map (report a)) := by
  intro x
  induction x with
  | nil => intro n _ _; simp [collect, flags]
  | cons e x ih =>
    intro n hx hc
    have he := hx e List.mem_cons_self
    have hce := hc e List.mem_cons_self
    have g1 : e.gotIn = false := by rw [← hce]; rfl
    have g2 : e.gotOut = false := by rw [← hce]; rfl
    have key : collect1 a e = .ok (some ((if (report a e).gotIn then 1 else 0) + (if (report a e).gotOut then 1 else 0), report a e)) := by
      unfold collect1
      by_cases hn : e.fd < 0
      · rw [if_pos hn]
        have : report a e = e := by
          unfold report
          rw [show decide (0 ≤ e.fd) = false from decide_eq_false (by omega)]
          exact hce
        rw [this, g1, g2]; rfl
      · rw [if_neg hn, if_neg (by omega)]
        simp only []
        rw [isset_ok a.r hr _ _ (by omega), Out.ok_bind, isset_ok a.w hw _ _ (by omega), Out.ok_bind]
        unfold report
        rw [show decide (0 ≤ e.fd) = true from decide_eq_true (by omega), g1, g2]
        rfl
    rw [collect, key, Out.ok_bind]
    simp only []
    rw [ih _ (fun e h => hx e (List.mem_cons_of_mem _ h)) (fun e h => hc e (List.mem_cons_of_mem _ h)), Out.ok_bind]
    simp only [List.map_cons, flags, List.sum_cons, Out.pure_eq, Out.ok.injEq, Prod.mk.injEq, and_true]
    rcases (report a e).gotIn with _ | _ <;> rcases (report a e).gotOut with _ | _ <;> simp <;> omega

/-- C69: for every list of entries within the descriptor sets and every answer of the kernel: the kernel is asked exactly about what the entries ask
for; on timeout or error nothing is reported; otherwise each entry is reported exactly the events it asked for that the kernel
found ready, and the value returned is their number. No bit outside the sets is touched. -/
theorem c69_poll (x : List Entry) (millisecs : Int) (hx : ∀ e ∈ x, e.fd < 1024) :
    ∃ q, Asks x millisecs q ∧ ∀ select : Query → Answer, (select q).r.length = 1024 → (select q).w.length = 1024 →
      jailPoll select x millisecs = .ok (if (select q).ret ≤ 0 then ((select q).ret, x.map clear)
        else (flags (x.map (report (select q))), x.map (report (select q)))) := by
  have hxc : ∀ e ∈ x.map clear, e.fd < setSize := by
    intro e he
    obtain ⟨e', h1, rfl⟩ := List.mem_map.1 he
    exact hx e' h1
  obtain ⟨n, r, w, a1, a2, a3, a4, a5, a6, a7, a8⟩ := prepare_ok (x.map clear) 1 emptySet emptySet (by decide) (by decide) (by simp [emptySet])
    (by simp [emptySet]) hxc
  have hz : ∀ i : Nat, emptySet[i]? ≠ some true := by
    intro i h
    have := List.mem_of_getElem? h
    simp [emptySet] at this
  refine ⟨⟨n, r, w, timeoutOf millisecs⟩, ⟨a5, a6, ?_, ?_, ⟨a3, ?_⟩, ?_, ?_⟩, ?_⟩
  · intro fd
    simp only []
    rw [a7 fd]
    simp only [hz, or_false, List.mem_map]
    constructor
    · rintro ⟨_, ⟨e, he, rfl⟩, h⟩; exact ⟨e, he, h⟩
    · rintro ⟨e, he, h⟩; exact ⟨clear e, ⟨e, he, rfl⟩, h⟩
  · intro fd
    simp only []
    rw [a8 fd]
    simp only [hz, or_false, List.mem_map]
    constructor
    · rintro ⟨_, ⟨e, he, rfl⟩, h⟩; exact ⟨e, he, h⟩
    · rintro ⟨e, he, h⟩; exact ⟨clear e, ⟨e, he, rfl⟩, h⟩
  · intro e he
    exact a4 (clear e) (List.mem_map.2 ⟨e, he, rfl⟩)
  · intro h; simp only [timeoutOf]; rw [if_neg (by omega)]
  · intro h
    refine ⟨⟨millisecs / 1000, 1000 * (millisecs % 1000)⟩, by simp only [timeoutOf]; rw [if_pos h], ?_, ?_, ?_⟩ <;> simp only [] <;> omega
  · intro select h1 h2
    unfold jailPoll
    simp only []
    have : (x.map fun e => { e with gotIn := false, gotOut := false }) = x.map clear := rfl
    rw [this, a1, Out.ok_bind]
    simp only []
    split
    · rfl
    · rw [collect_ok _ h1 h2 _ _ hxc (by
        intro e he
        obtain ⟨e', _, rfl⟩ := List.mem_map.1 he
        rfl)]
      simp only [List.map_map, Int.zero_add]
      rfl

/-- C69: a descriptor that does not fit the sets is refused, and the kernel is not asked. -/
theorem c69_refused (x : List Entry) (millisecs : Int) (hx : ∃ e ∈ x, 1024 ≤ e.fd) (select : Query → Answer) :
    jailPoll select x millisecs = .ok (-1, x.map clear) := by
  unfold jailPoll
  simp only []
  have : (x.map fun e => { e with gotIn := false, gotOut := false }) = x.map clear := rfl
  rw [this, prepare_refused (x.map clear) 1 emptySet emptySet (by simp [emptySet]) (by simp [emptySet]) (by
    obtain ⟨e, h1, h2⟩ := hx
    exact ⟨clear e, List.mem_map.2 ⟨e, h1, rfl⟩, h2⟩), Out.ok_bind]
  rfl

/-- select() as specified: at success it leaves in the sets the descriptors asked about that are ready. -/
def Honest (readyIn readyOut : Nat → Bool) (select : Query → Answer) : Prop :=
  ∀ q, (select q).r.length = q.r.length ∧ (select q).w.length = q.w.length ∧
    (0 < (select q).ret → (∀ fd : Nat, (select q).r[fd]?.getD false = (q.r[fd]?.getD false && readyIn fd)) ∧
      ∀ fd : Nat, (select q).w[fd]?.getD false = (q.w[fd]?.getD false && readyOut fd))

/-- C69: with select() as specified, a positive result reports for each entry exactly which of the events it asked for are ready. -/
theorem c69_ready (x : List Entry) (millisecs : Int) (hx : ∀ e ∈ x, e.fd < 1024) (readyIn readyOut : Nat → Bool) (select : Query → Answer)
    (hs : Honest readyIn readyOut select) (n : Int) (y : List Entry) (h : jailPoll select x millisecs = .ok (n, y)) (hn : 0 < n) :
    y = x.map (fun e => { e with gotIn := decide (0 ≤ e.fd) && e.wantIn && readyIn e.fd.toNat
                                 gotOut := decide (0 ≤ e.fd) && e.wantOut && readyOut e.fd.toNat }) ∧ n = flags y := by
  obtain ⟨q, hq, hp⟩ := c69_poll x millisecs hx
  obtain ⟨l1, l2, hr⟩ := hs q
  rw [hp select (l1.trans hq.rlen) (l2.trans hq.wlen)] at h
  split at h
  · cases h; omega
  · rename_i hret
    obtain ⟨hi, ho⟩ := hr (by omega)
    cases h
    refine ⟨?_, rfl⟩
    apply List.map_congr_left
    intro e he
    unfold report
    by_cases hneg : 0 ≤ e.fd
    · have ei : e.wantIn = true → q.r[e.fd.toNat]?.getD false = true := by
        intro hw
        rw [(hq.rset e.fd.toNat).2 ⟨e, he, by omega, hw⟩]; rfl
      have eo : e.wantOut = true → q.w[e.fd.toNat]?.getD false = true := by
        intro hw
        rw [(hq.wset e.fd.toNat).2 ⟨e, he, by omega, hw⟩]; rfl
      rw [hi, ho]
      congr 1
      · cases hw : e.wantIn
        · simp
        · rw [ei hw]; simp
      · cases hw : e.wantOut
        · simp
        · rw [eo hw]; simp
    · rw [show decide (0 ≤ e.fd) = false from decide_eq_false hneg]; rfl

/-- Three entries, one of them skipped; descriptor 5 is readable, 7 is not writable. -/
def sample : List Entry := [⟨5, true, false, true, true⟩, ⟨-1, true, true, true, false⟩, ⟨7, true, true, false, false⟩]

def sampleSelect (q : Query) : Answer :=
  ⟨1, q.r.mapIdx (fun i b => b && i == 5), List.replicate q.w.length false⟩

example : jailPoll sampleSelect sample 1500 = .ok (1, [⟨5, true, false, true, false⟩, ⟨-1, true, true, false, false⟩, ⟨7, true, true, false, false⟩]) ∧
    jailPoll sampleSelect [⟨1024, true, false, true, false⟩] 0 = .ok (-1, [⟨1024, true, false, false, false⟩]) := by decide +kernel

example : Honest (fun i => i == 5) (fun _ => false) sampleSelect := by
  intro q
  refine ⟨by simp [sampleSelect], by simp [sampleSelect], fun _ => ⟨fun fd => ?_, fun fd => ?_⟩⟩
  · simp only [sampleSelect, List.getElem?_mapIdx]
    cases q.r[fd]? <;> simp
  · simp only [sampleSelect, Bool.and_false]
    cases h : (List.replicate q.w.length false)[fd]? with
    | none => rfl
    | some b =>
      have := List.mem_of_getElem? h
      simp at this
      simp [this.2]

end JailPoll
