import Verif.Jail.Spec
namespace Jail

theorem bind_some {α β} {x : M α} {f : α → M β} {k k' : K} {b : β} (h : (x >>= f) k = (some b, k')) :
    ∃ a k1, x k = (some a, k1) ∧ f a k1 = (some b, k') := by
  change M.bind x f k = _ at h
  unfold M.bind at h
  split at h
  · rename_i a k1 e; exact ⟨a, k1, e, h⟩
  · cases h

theorem pure_some {α} {a b : α} {k k' : K} (h : (pure a : M α) k = (some b, k')) : b = a ∧ k' = k := by
  change ((some a, k) : Option α × K) = _ at h
  cases h; exact ⟨rfl, rfl⟩

/-- How a successful call went. -/
structure Did (w : World) (c : Call) (lies : Bool) (f : Proc → Option Proc) (k k' : K) : Prop where
  log : k'.log = (c, .ok) :: k.log
  eff : f k.p = some k'.p ∨ (lies = true ∧ k'.p = k.p ∧ w.faults k.n = .lie)

theorem call_ok {w : World} {k k' : K} {c : Call} {lies : Bool} {f : Proc → Option Proc} (h : call w k c lies f = (.ok, k')) :
    Did w c lies f k k' := by
  unfold call at h
  simp only [] at h
  split at h
  · cases h
  · cases h
  · rename_i hl
    split at h
    · rename_i hb; cases h; exact ⟨rfl, .inr ⟨hb, rfl, hl⟩⟩
    · split at h
      · rename_i p e; cases h; exact ⟨rfl, .inl e⟩
      · cases h
  · split at h
    · rename_i p e; cases h; exact ⟨rfl, .inl e⟩
    · cases h

theorem call_bad {w : World} {k k' : K} {c : Call} {lies : Bool} {f : Proc → Option Proc} {r : Ret} (h : call w k c lies f = (r, k'))
    (hr : r ≠ .ok) : k'.log = (c, r) :: k.log ∧ k'.p = k.p := by
  unfold call at h
  simp only [] at h
  split at h
  · cases h; exact ⟨rfl, rfl⟩
  · cases h; exact ⟨rfl, rfl⟩
  · split at h
    · cases h; exact absurd rfl hr
    · split at h
      · cases h; exact absurd rfl hr
      · cases h; exact ⟨rfl, rfl⟩
  · split at h
    · cases h; exact absurd rfl hr
    · cases h; exact ⟨rfl, rfl⟩

theorem must_some {w : World} {c : Call} {lies : Bool} {f : Proc → Option Proc} {k k' : K} {u : Unit}
    (h : must w c lies f k = (some u, k')) : Did w c lies f k k' := by
  unfold must at h
  split at h
  · rename_i k2 e; cases h; exact call_ok e
  · cases h

theorem must_honest {w : World} {c : Call} {f : Proc → Option Proc} {k k' : K} {u : Unit}
    (h : must w c false f k = (some u, k')) : k'.log = (c, .ok) :: k.log ∧ f k.p = some k'.p := by
  have d := must_some h
  exact ⟨d.log, d.eff.resolve_right (by simp)⟩

theorem callLim_ok {w : World} {k k' : K} {c : Call} {r : Res} {f : Proc → Option Proc} (h : callLim w k c r f = (.ok, k')) :
    k'.log = (c, .ok) :: k.log ∧ f k.p = some k'.p := by
  unfold callLim at h
  split at h
  · cases h
  · have d := call_ok h
    exact ⟨d.log, d.eff.resolve_right (by simp)⟩

theorem callLim_bad {w : World} {k k' : K} {c : Call} {x : Res} {f : Proc → Option Proc} {r : Ret} (h : callLim w k c x f = (r, k'))
    (hr : r ≠ .ok) : k'.log = (c, r) :: k.log ∧ k'.p = k.p := by
  unfold callLim at h
  split at h
  · cases h; exact ⟨rfl, rfl⟩
  · exact call_bad h hr

theorem kSetrlimit_some {p q : Proc} {r : Res} {a b : Nat} (h : kSetrlimit p r a b = some q) :
    q = { p with rlim := fun x => if x = r then some (a, b) else p.rlim x } := by
  unfold kSetrlimit at h
  split at h
  · cases h
  · split at h
    · cases h
    · split at h
      · cases h
      · exact (Option.some.inj h).symm

theorem zero_some {w : World} {r : Res} {k k' : K} {u : Unit} (h : zero w r k = (some u, k')) :
    k'.log = (.setrlimit r 0 0, .ok) :: k.log ∧ k'.p = { k.p with rlim := fun x => if x = r then some (0, 0) else k.p.rlim x } := by
  unfold zero at h
  split at h
  · rename_i k2 e
    cases h
    obtain ⟨h1, h2⟩ := callLim_ok e
    exact ⟨h1, kSetrlimit_some h2⟩
  · cases h

theorem failIf_some {b : Bool} {k k' : K} {u : Unit} (h : failIf b k = (some u, k')) : b = false ∧ k' = k := by
  unfold failIf at h
  cases b
  · cases h; exact ⟨rfl, rfl⟩
  · cases h

theorem look_some {α} {f : Proc → α} {k k' : K} {a : α} (h : look f k = (some a, k')) : a = f k.p ∧ k' = k := by
  unfold look at h; cases h; exact ⟨rfl, rfl⟩

/-- setgid() took effect. -/
theorem dropGid_some {w : World} {gid : Nat} {k k' : K} {u : Unit} (h : dropGid w gid k = (some u, k')) :
    k'.log = (.setgid gid, .ok) :: k.log ∧ k'.p.rgid = gid ∧
    (kSetgid k.p gid = some k'.p ∨ (w.faults k.n = .lie ∧ k'.p = k.p)) := by
  unfold dropGid at h
  obtain ⟨_, k1, h1, h⟩ := bind_some h
  obtain ⟨g, k2, h2, h⟩ := bind_some h
  obtain ⟨rfl, rfl⟩ := look_some h2
  obtain ⟨h3, rfl⟩ := failIf_some h
  have d := must_some h1
  refine ⟨d.log, by simpa using h3, ?_⟩
  rcases d.eff with e | e
  · exact .inl e
  · exact .inr ⟨e.2.2, e.2.1⟩

theorem dropUid_some {w : World} {uid : Nat} {k k' : K} {u : Unit} (h : dropUid w uid k = (some u, k')) :
    k'.log = (.setuid uid, .ok) :: k.log ∧ k'.p.ruid = uid ∧
    (kSetuid k.p uid = some k'.p ∨ (w.faults k.n = .lie ∧ k'.p = k.p)) := by
  unfold dropUid at h
  obtain ⟨_, k1, h1, h⟩ := bind_some h
  obtain ⟨g, k2, h2, h⟩ := bind_some h
  obtain ⟨rfl, rfl⟩ := look_some h2
  obtain ⟨h3, rfl⟩ := failIf_some h
  have d := must_some h1
  refine ⟨d.log, by simpa using h3, ?_⟩
  rcases d.eff with e | e
  · exact .inl e
  · exact .inr ⟨e.2.2, e.2.1⟩

/-- The groups installed. -/
def groupsOf (w : World) (pw : Option Pw) (gid : Nat) : List Nat :=
  match pw with | some pw => w.grouplist pw.name gid | none => [gid]

def groupsCall (pw : Option Pw) (gid : Nat) : Call :=
  match pw with | some pw => .initgroups pw.name gid | none => .setgroups [gid]

theorem dropGroups_some {w : World} {pw : Option Pw} {gid : Nat} {k k' : K} {u : Unit} (h : dropGroups w pw gid k = (some u, k')) :
    k'.log = (groupsCall pw gid, .ok) :: k.log ∧ k.p.cap = true ∧ k'.p = { k.p with groups := groupsOf w pw gid } := by
  have key : ∀ l, kSetgroups k.p l = some k'.p → k.p.cap = true ∧ k'.p = { k.p with groups := l } := by
    intro l e
    unfold kSetgroups at e
    split at e
    · rename_i hc; exact ⟨hc, (Option.some.inj e).symm⟩
    · cases e
  cases pw with
  | none =>
    obtain ⟨h1, h2⟩ := must_honest h
    exact ⟨h1, key _ h2⟩
  | some pw =>
    obtain ⟨h1, h2⟩ := must_honest h
    exact ⟨h1, key _ h2⟩

def enterCalls (dir : Option Bytes) : List Call :=
  match dir with | some d => [.chdir d, .chroot b!"."] | none => []

theorem enter_some {w : World} {dir : Option Bytes} {k k' : K} {u : Unit} (h : enter w dir k = (some u, k')) :
    k'.log = (enterCalls dir).reverse.map (·, Ret.ok) ++ k.log ∧
    k'.p = { k.p with cwd := dir.getD k.p.cwd, root := dir.getD k.p.root } := by
  cases dir with
  | none =>
    obtain ⟨_, rfl⟩ := pure_some h
    exact ⟨rfl, rfl⟩
  | some d =>
    obtain ⟨_, k1, h1, h⟩ := bind_some h
    obtain ⟨a1, a2⟩ := must_honest h1
    obtain ⟨b1, b2⟩ := must_honest h
    refine ⟨by rw [b1, a1]; rfl, ?_⟩
    have a2 := (Option.some.inj a2).symm
    unfold kChroot at b2
    split at b2
    · have b2 := (Option.some.inj b2).symm
      rw [b2, a2]; rfl
    · cases b2

theorem limit_some {w : World} {limits : Bool} {r : Res} {k k' : K} {u : Unit} (h : limit w limits r k = (some u, k')) :
    k'.log = (if limits then [(Call.setrlimit r 0 0, Ret.ok)] else []) ++ k.log ∧
    k'.p = { k.p with rlim := if limits then fun x => if x = r then some (0, 0) else k.p.rlim x else k.p.rlim } := by
  cases limits with
  | false =>
    obtain ⟨_, rfl⟩ := pure_some h
    exact ⟨rfl, rfl⟩
  | true => exact zero_some h

def envCalls (pw : Option Pw) : List Call :=
  match pw with
  | some pw => [.setenv b!"HOME" pw.home, .setenv b!"SHELL" pw.shell, .setenv b!"USER" pw.name, .setenv b!"LOGNAME" pw.name]
  | none => []

/-- The environment with the account's variables. -/
def envOf (pw : Option Pw) (e : Bytes → Option Bytes) : Bytes → Option Bytes :=
  match pw with
  | none => e
  | some pw => fun x => if x = b!"LOGNAME" then some pw.name else if x = b!"USER" then some pw.name
      else if x = b!"SHELL" then some pw.shell else if x = b!"HOME" then some pw.home else e x

theorem environ_some {w : World} {pw : Option Pw} {k k' : K} {u : Unit} (h : environ w pw k = (some u, k')) :
    k'.log = (envCalls pw).reverse.map (·, Ret.ok) ++ k.log ∧ k'.p = { k.p with env := envOf pw k.p.env } := by
  cases pw with
  | none =>
    obtain ⟨_, rfl⟩ := pure_some h
    exact ⟨rfl, rfl⟩
  | some pw =>
    obtain ⟨_, k1, h1, h⟩ := bind_some h
    obtain ⟨_, k2, h2, h⟩ := bind_some h
    obtain ⟨_, k3, h3, h⟩ := bind_some h
    obtain ⟨a1, a2⟩ := must_honest h1
    obtain ⟨b1, b2⟩ := must_honest h2
    obtain ⟨c1, c2⟩ := must_honest h3
    obtain ⟨d1, d2⟩ := must_honest h
    have a2 := (Option.some.inj a2).symm
    have b2 := (Option.some.inj b2).symm
    have c2 := (Option.some.inj c2).symm
    have d2 := (Option.some.inj d2).symm
    exact ⟨by rw [d1, c1, b1, a1]; rfl, by rw [d2, c2, b2, a2]; rfl⟩

theorem undump_some {w : World} {limits : Bool} {k k' : K} {u : Unit} (h : undump w limits k = (some u, k')) :
    k'.log = (if limits then [(Call.prctlDumpable false, Ret.ok)] else []) ++ k.log ∧
    k'.p = { k.p with dumpable := if limits then false else k.p.dumpable } := by
  cases limits with
  | false =>
    obtain ⟨_, rfl⟩ := pure_some h
    exact ⟨rfl, rfl⟩
  | true =>
    obtain ⟨h1, h2⟩ := must_honest h
    exact ⟨h1, (Option.some.inj h2).symm⟩

/-- One memory limit after its stage: unchanged and already low, lowered, or reported unsupported. -/
structure Mem (r : Res) (limit : Nat) (k k' : K) (m : List (Call × Ret)) : Prop where
  log : k'.log = m ++ k.log
  calls : ∀ x ∈ m, (x.1 = .getrlimit r ∨ ∃ a b, x.1 = .setrlimit r a b) ∧ x.2 ≠ .failed
  other : k'.p = { k.p with rlim := k'.p.rlim }
  rest : ∀ x, x ≠ r → k'.p.rlim x = k.p.rlim x
  low : (∃ c h, k'.p.rlim r = some (c, h) ∧ c ≤ limit) ∨ ∃ x ∈ m, x.2 = .einval

theorem limitMemory_some {w : World} {r : Res} {l : Nat} {k k' : K} {u : Unit} (h : limitMemory w r l k = (some u, k')) :
    ∃ m, Mem r l k k' m := by
  unfold limitMemory at h
  split at h
  · rename_i k1 e
    obtain ⟨e1, e2⟩ := callLim_bad e (by decide)
    cases h
    exact ⟨[(.getrlimit r, .einval)], e1, by simp, by rw [e2], fun x _ => by rw [e2], .inr ⟨_, List.mem_cons_self, rfl⟩⟩
  · cases h
  · rename_i k1 e
    obtain ⟨e1, e2⟩ := callLim_ok e
    have e2 := (Option.some.inj e2).symm
    split at h
    · cases h
    · rename_i cur max hcm
      split at h
      · rename_i hle
        cases h
        exact ⟨[(.getrlimit r, .ok)], e1, by simp, by rw [e2], fun x _ => by rw [e2], .inl ⟨cur, max, hcm, hle⟩⟩
      · simp only [] at h
        split at h
        · rename_i k2 e3
          cases h
          obtain ⟨f1, f2⟩ := callLim_ok e3
          have f2 := kSetrlimit_some f2
          refine ⟨[(.setrlimit r l (if max > l then l else max), .ok), (.getrlimit r, .ok)], by rw [f1, e1]; rfl, ?_, ?_, ?_, ?_⟩
          · simp
          · rw [f2, e2]
          · intro x hx; rw [f2, e2]; simp only []; rw [if_neg hx]
          · exact .inl ⟨l, _, by rw [f2]; exact if_pos rfl, Nat.le_refl _⟩
        · rename_i k2 e3
          cases h
          obtain ⟨f1, f2⟩ := callLim_bad e3 (by decide)
          refine ⟨[(.setrlimit r l (if max > l then l else max), .einval), (.getrlimit r, .ok)], by rw [f1, e1]; rfl, ?_, ?_, ?_, ?_⟩
          · simp
          · rw [f2, e2]
          · intro x hx; rw [f2, e2]
          · exact .inr ⟨_, List.mem_cons_self, rfl⟩
        · cases h

theorem target_some {w : World} {account : Option Bytes} {k k' : K} {t : Option Pw × Nat × Nat} (h : target w account k = (some t, k')) :
    k' = k ∧ t.1 = account.bind w.passwd ∧ Spec.Identity w account t.2.1 t.2.2 ∧ t.2.1 ≠ 0 ∧ t.2.2 ≠ 0 ∧
      (account ≠ none → t.1 ≠ none) := by
  cases account with
  | none =>
    obtain ⟨rfl, rfl⟩ := pure_some h
    refine ⟨rfl, rfl, ⟨rfl, rfl⟩, by simp only []; omega, by simp only []; omega, by simp⟩
  | some a =>
    cases hpw : w.passwd a with
    | none => simp only [target, hpw] at h; cases h
    | some pw =>
      simp only [target, hpw] at h
      split at h
      · cases h
      · rename_i h0
        obtain ⟨rfl, rfl⟩ := pure_some h
        refine ⟨rfl, by simp [hpw], ⟨pw, hpw, rfl, rfl⟩, ?_, ?_, by simp⟩
        · exact fun e => h0 (.inl e)
        · exact fun e => h0 (.inr e)

end Jail
