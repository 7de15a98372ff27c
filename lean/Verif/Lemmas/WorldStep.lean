import Verif.Lemmas.WorldInv
/-! Preservation of the invariant of the whole protocol (helpers only). -/
namespace Phoenix.World
open Phoenix Phoenix.World.Spec
open Phoenix.Moves (By)

variable {h : Host} {acct : Accounts} {w w' : World} {c : Ctx}

theorem pool_loaded {p : Option Pool.State} {q : Pool.State} (h : Pool.loaded p = .ok q) : p = some q := by
  unfold Pool.loaded at h; split at h
  · rw [ok_inj] at h; rw [h]
  · simp at h
theorem stable_loaded {p : Option Stable.State} {q : Stable.State} (h : Stable.loaded p = .ok q) : p = some q := by
  unfold Stable.loaded at h; split at h
  · rw [ok_inj] at h; rw [h]
  · simp at h
theorem vest_loaded {p : Option Vesting.State} {q : Vesting.State} (h : Vesting.loaded p = .ok q) : p = some q := by
  unfold Vesting.loaded at h; split at h
  · rw [ok_inj] at h; rw [h]
  · simp at h
theorem fac_loaded {p : Option Factory.State} {q : Factory.State} (h : Factory.loaded p = .ok q) : p = some q := by
  unfold Factory.loaded at h; split at h
  · rw [ok_inj] at h; rw [h]
  · simp at h
theorem hop_loaded {p : Option Multihop.State} {q : Multihop.State} (h : Multihop.loaded p = .ok q) : p = some q := by
  unfold Multihop.loaded at h; split at h
  · rw [ok_inj] at h; rw [h]
  · simp at h
theorem trd_loaded {p : Option Trader.State} {q : Trader.State} (h : Trader.loaded p = .ok q) : p = some q := by
  unfold Trader.loaded at h; split at h
  · rw [ok_inj] at h; rw [h]
  · simp at h

theorem expect_ok {a : Addr} {k : Code} {u : Unit} : expect w a k = .ok u ↔ w.code a = k := by
  unfold expect; rw [req_ok]

/-- Only accounts sign. -/
abbrev Signed (acct : Accounts) (c : Ctx) : Prop := ∀ a, c.signed a = true → acct a

theorem by_acct (hc : Signed acct c) (P a : Addr) (k : By c P a) : acct a ∨ a = P := k.imp_left (hc a)

theorem Core.auth_false (i : Core acct w) (hc : Signed acct c) {P : Addr} (hP : w.code P ≠ .none)
    (hi : c.invoker ≠ some P) : c.auth P = false := by
  have h1 := i.contracts P hP
  unfold Ctx.auth
  have : c.signed P = false := by
    cases e : c.signed P with
    | false => rfl
    | true => exact absurd (hc P e) h1
  rw [this]; simpa using hi

/-- A step of the XYK pool at `P`. -/
theorem xyk_step {P : Addr} {k : Pool.Call} {s' : Pool.Sys} (i : Inv h acct w) (hc : Signed acct c)
    (hP : w.code P = .xyk) (hi : c.invoker ≠ some P) (hk : ∀ j, k ≠ .init j)
    (e : Pool.step P ⟨w.xyk P, w.led⟩ (.pool c k) = .ok s') :
    Inv h acct { w with xyk := upd w.xyk P s'.pool, led := s'.led } ∧
    Grows w { w with xyk := upd w.xyk P s'.pool, led := s'.led } := by
  have hne : w.code P ≠ .none := by rw [hP]; simp
  have hna := i.core.contracts P hne
  have hf := i.core.auth_false hc hne hi
  have A := i.core.at_ P hna
  have hposs : Phoenix.Spec.Possible P (.pool c k) := by
    refine ⟨hf, ?_⟩
    cases k with
    | init j => exact absurd rfl (hk j)
    | _ => trivial
  have S' := Pool.step_keeps e hposs A.xyk
  obtain ⟨p, hp⟩ : ∃ p, w.xyk P = some p := by
    cases hp : w.xyk P with
    | some p => exact ⟨p, rfl⟩
    | none =>
      rw [hp] at e
      cases k with
      | init j => exact absurd rfl (hk j)
      | _ => simp [Pool.step, Pool.loaded, bind_ok] at e
  have ok := i.refs.xyk P p hp
  obtain ⟨q, hq, e1, e2, e3, e4, -⟩ := Pool.step_pool e hposs A.xyk hp
  have n2 : w.stable P = none := by
    cases hs : w.stable P with
    | none => rfl
    | some q => have := (i.refs.stable P q hs).1; rw [hP] at this; simp at this
  have n4 : w.vest P = none := by
    cases hs : w.vest P with
    | none => rfl
    | some q => have := i.refs.vest P q hs; rw [hP] at this; simp at this
  have n3 : w.stake P = Stake.fresh := i.refs.stake P (by rw [hP]; simp)
  have g : Grows w { w with xyk := upd w.xyk P s'.pool, led := s'.led } := by
    refine { Grows.refl w with xyk := fun Q r hr => ?_ }
    simp only [upd_apply]
    by_cases eQ : Q = P
    · subst eQ; rw [hp] at hr; cases hr
      simp only [if_true]
      exact ⟨q, hq, e1, e2, e3, e4⟩
    · simp only [eQ, if_false]; exact ⟨r, hr, rfl, rfl, rfl, rfl⟩
  have n5 : w.rew P = Rewards.fresh := i.refs.rew P (by rw [hP]; simp)
  refine ⟨⟨?_, ?_⟩, g⟩
  · refine i.core.acts (fun a => a = P) rfl (fun a ha => ?_) ?_ (fun a ha _ => ?_)
    · simp only [upd_ne _ _ ha]; trivial
    · refine (Pool.step_moves e hk fun r hr => ?_).mono (by_acct hc P) (fun _ k => k)
      simp only at hr; rw [hp] at hr; cases hr
      rw [ok.2.1]; simp
    · subst ha
      unfold AtW
      simp only [upd_same, n2, n3, n4, n5]
      exact ⟨S', stable_none S'.led, stake_fresh S'.led, vest_none S'.led, rew_fresh S'.led⟩
  · refine i.refs.grows g (fun Q r hr hn => ?_) (fun Q r hr hn => ?_) (fun _ => .inl rfl) (fun Q r hr hn => ?_)
      (fun F f hf => .inl ⟨f, hf, rfl, rfl, rfl, rfl⟩) (fun Q r hr hn => ?_) (fun Q r hr hn => ?_)
    · by_cases eQ : Q = P
      · subst eQ; rw [hp] at hn; simp at hn
      · simp only [upd_ne _ _ eQ] at hr; rw [hn] at hr; simp at hr
    all_goals (simp only at hr; rw [hn] at hr; simp at hr)

/-- A step of the stable pool at `P`. -/
theorem stable_step {P : Addr} {k : Stable.Call} {s' : Stable.Sys} (i : Inv h acct w) (hc : Signed acct c)
    (hP : w.code P = .stable) (hi : c.invoker ≠ some P) (hk : ∀ j, k ≠ .init j)
    (e : Stable.step P ⟨w.stable P, w.led⟩ (.pool c k) = .ok s') :
    Inv h acct { w with stable := upd w.stable P s'.pool, led := s'.led } ∧
    Grows w { w with stable := upd w.stable P s'.pool, led := s'.led } := by
  have hne : w.code P ≠ .none := by rw [hP]; simp
  have hna := i.core.contracts P hne
  have hf := i.core.auth_false hc hne hi
  have A := i.core.at_ P hna
  have hposs : Stable.Spec.Possible P (.pool c k) := by
    refine ⟨hf, ?_⟩
    cases k with
    | init j => exact absurd rfl (hk j)
    | _ => trivial
  have S' := Stable.step_keeps e hposs A.stable
  obtain ⟨p, hp⟩ : ∃ p, w.stable P = some p := by
    cases hp : w.stable P with
    | some p => exact ⟨p, rfl⟩
    | none =>
      rw [hp] at e
      cases k with
      | init j => exact absurd rfl (hk j)
      | _ => simp [Stable.step, Stable.loaded, bind_ok] at e
  have ok := i.refs.stable P p hp
  obtain ⟨q, hq, e1, e2, e3, e4, -⟩ := Props.Stable.step_pool e hposs A.stable hp
  have n2 : w.xyk P = none := by
    cases hs : w.xyk P with
    | none => rfl
    | some q => have := (i.refs.xyk P q hs).1; rw [hP] at this; simp at this
  have n4 : w.vest P = none := by
    cases hs : w.vest P with
    | none => rfl
    | some q => have := i.refs.vest P q hs; rw [hP] at this; simp at this
  have n3 : w.stake P = Stake.fresh := i.refs.stake P (by rw [hP]; simp)
  have g : Grows w { w with stable := upd w.stable P s'.pool, led := s'.led } := by
    refine { Grows.refl w with stable := fun Q r hr => ?_ }
    simp only [upd_apply]
    by_cases eQ : Q = P
    · subst eQ; rw [hp] at hr; cases hr
      simp only [if_true]
      exact ⟨q, hq, e1, e2, e3, e4⟩
    · simp only [eQ, if_false]; exact ⟨r, hr, rfl, rfl, rfl, rfl⟩
  have n5 : w.rew P = Rewards.fresh := i.refs.rew P (by rw [hP]; simp)
  refine ⟨⟨?_, ?_⟩, g⟩
  · refine i.core.acts (fun a => a = P) rfl (fun a ha => ?_) ?_ (fun a ha _ => ?_)
    · simp only [upd_ne _ _ ha]; trivial
    · refine (Stable.step_moves e hk fun r hr => ?_).mono (by_acct hc P) (fun _ k => k)
      simp only at hr; rw [hp] at hr; cases hr
      rw [ok.2.1]; simp
    · subst ha
      unfold AtW
      simp only [upd_same, n2, n3, n4, n5]
      exact ⟨pool_none S'.led, S', stake_fresh S'.led, vest_none S'.led, rew_fresh S'.led⟩
  · refine i.refs.grows g (fun Q r hr hn => ?_) (fun Q r hr hn => ?_) (fun _ => .inl rfl) (fun Q r hr hn => ?_)
      (fun F f hf => .inl ⟨f, hf, rfl, rfl, rfl, rfl⟩) (fun Q r hr hn => ?_) (fun Q r hr hn => ?_)
    · simp only at hr; rw [hn] at hr; simp at hr
    · by_cases eQ : Q = P
      · subst eQ; rw [hp] at hn; simp at hn
      · simp only [upd_ne _ _ eQ] at hr; rw [hn] at hr; simp at hr
    all_goals (simp only at hr; rw [hn] at hr; simp at hr)

theorem stake_cfg {K : Addr} {s s' : Stake.Sys} {t : Stake.Tx} {cfg : Stake.Config} (e : Stake.step K s t = .ok s')
    (hc : s.st.cfg = some cfg) : s'.st.cfg = some cfg := by
  have := Props.C67_config_permanent (me := K) hc [t]
  simp only [Stake.run, Stake.exec, List.foldl_cons, List.foldl_nil, e] at this
  exact this.1

/-- A step of the stake contract at `K`. -/
theorem stake_step {K : Addr} {k : Stake.Call} {s' : Stake.Sys} (i : Inv h acct w) (hc : Signed acct c)
    (hK : w.code K = .stake) (hi : c.invoker ≠ some K) (e : Stake.step K ⟨w.stake K, w.led⟩ (.stake c k) = .ok s') :
    Inv h acct { w with stake := upd w.stake K s'.st, led := s'.led } ∧
    Grows w { w with stake := upd w.stake K s'.st, led := s'.led } := by
  have hne : w.code K ≠ .none := by rw [hK]; simp
  have hna := i.core.contracts K hne
  have hf := i.core.auth_false hc hne hi
  have A := i.core.at_ K hna
  have S' := Stake.step_invA e hf A.stake
  have n1 : w.xyk K = none := by
    cases hs : w.xyk K with
    | none => rfl
    | some q => have := (i.refs.xyk K q hs).1; rw [hK] at this; simp at this
  have n2 : w.stable K = none := by
    cases hs : w.stable K with
    | none => rfl
    | some q => have := (i.refs.stable K q hs).1; rw [hK] at this; simp at this
  have n4 : w.vest K = none := by
    cases hs : w.vest K with
    | none => rfl
    | some q => have := i.refs.vest K q hs; rw [hK] at this; simp at this
  have g : Grows w { w with stake := upd w.stake K s'.st, led := s'.led } := by
    refine { Grows.refl w with stake := fun Q r hr => ?_ }
    simp only [upd_apply]
    by_cases eQ : Q = K
    · subst eQ; simp only [if_true]; exact stake_cfg e hr
    · simp only [eQ, if_false]; exact hr
  have n5 : w.rew K = Rewards.fresh := i.refs.rew K (by rw [hK]; simp)
  refine ⟨⟨?_, ?_⟩, g⟩
  · refine i.core.acts (fun a => a = K) rfl (fun a ha => ?_) ?_ (fun a ha _ => ?_)
    · simp only [upd_ne _ _ ha]; trivial
    · exact (Stake.step_moves e).mono (by_acct hc K) (fun _ k => k)
    · subst ha
      unfold AtW
      simp only [upd_same, n1, n2, n4, n5]
      exact ⟨pool_none S'.led, stable_none S'.led, S', vest_none S'.led, rew_fresh S'.led⟩
  · refine i.refs.grows g (fun Q r hr hn => ?_) (fun Q r hr hn => ?_) (fun Q => ?_) (fun Q r hr hn => ?_)
      (fun F f hf => .inl ⟨f, hf, rfl, rfl, rfl, rfl⟩) (fun Q r hr hn => ?_) (fun Q r hr hn => ?_)
    rotate_left 2
    · by_cases eQ : Q = K
      · subst eQ; exact .inr hK
      · exact .inl (upd_ne _ _ eQ)
    all_goals (simp only at hr; rw [hn] at hr; simp at hr)

theorem vest_some {V : Addr} {k : Vesting.Call} {s s' : Vesting.Sys} {v : Vesting.State}
    (e : Vesting.step V s (.vest c k) = .ok s') (hv : s.vest = some v) : ∃ u, s'.vest = some u := by
  cases k <;> simp only [Vesting.step, bind_ok, ok_inj, Prod.exists] at e <;> grind

/-- A step of the vesting contract at `V`. -/
theorem vest_step {V : Addr} {k : Vesting.Call} {s' : Vesting.Sys} (i : Inv h acct w) (hc : Signed acct c)
    (hV : w.code V = .vesting) (hi : c.invoker ≠ some V)
    (hm : (∃ a x, k = .mint a x) → ∀ v, w.vest V = some v → w.code v.token ≠ .none)
    (e : Vesting.step V ⟨w.vest V, w.led⟩ (.vest c k) = .ok s') :
    Inv h acct { w with vest := upd w.vest V s'.vest, led := s'.led } ∧
    Grows w { w with vest := upd w.vest V s'.vest, led := s'.led } := by
  have hne : w.code V ≠ .none := by rw [hV]; simp
  have hna := i.core.contracts V hne
  have hf := i.core.auth_false hc hne hi
  have A := i.core.at_ V hna
  have S' := Vesting.step_inv e hf A.vest
  have n1 : w.xyk V = none := by
    cases hs : w.xyk V with
    | none => rfl
    | some q => have := (i.refs.xyk V q hs).1; rw [hV] at this; simp at this
  have n2 : w.stable V = none := by
    cases hs : w.stable V with
    | none => rfl
    | some q => have := (i.refs.stable V q hs).1; rw [hV] at this; simp at this
  have n3 : w.stake V = Stake.fresh := i.refs.stake V (by rw [hV]; simp)
  have g : Grows w { w with vest := upd w.vest V s'.vest, led := s'.led } := by
    refine { Grows.refl w with vest := fun Q r hr => ?_ }
    simp only [upd_apply]
    by_cases eQ : Q = V
    · subst eQ; simp only [if_true]; exact vest_some e hr
    · simp only [eQ, if_false]; exact ⟨r, hr⟩
  have n5 : w.rew V = Rewards.fresh := i.refs.rew V (by rw [hV]; simp)
  refine ⟨⟨?_, ?_⟩, g⟩
  · refine i.core.acts (fun a => a = V) rfl (fun a ha => ?_) ?_ (fun a ha _ => ?_)
    · simp only [upd_ne _ _ ha]; trivial
    · exact (Vesting.step_moves e hm).mono (by_acct hc V) (fun _ k => k)
    · subst ha
      unfold AtW
      simp only [upd_same, n1, n2, n3, n5]
      exact ⟨pool_none S'.led, stable_none S'.led, stake_fresh S'.led, S', rew_fresh S'.led⟩
  · refine i.refs.grows g (fun Q r hr hn => ?_) (fun Q r hr hn => ?_) (fun Q => .inl rfl) (fun Q r hr hn => ?_)
      (fun F f hf => .inl ⟨f, hf, rfl, rfl, rfl, rfl⟩) (fun Q r hr hn => ?_) (fun Q r hr hn => ?_)
    rotate_left 2
    · by_cases eQ : Q = V
      · subst eQ; exact hV
      · simp only [upd_ne _ _ eQ] at hr; rw [hn] at hr; simp at hr
    all_goals (simp only at hr; rw [hn] at hr; simp at hr)

/-- A step of the reward contract at `R`. -/
theorem rew_step {R : Addr} {k : Rewards.Call} {s' : Rewards.Sys} (i : Inv h acct w) (hc : Signed acct c)
    (hR : w.code R = .rewards) (hi : c.invoker ≠ some R)
    (e : Rewards.step R ⟨w.rew R, w.led⟩ (.rewards c k) = .ok s') :
    Inv h acct { w with rew := upd w.rew R s'.st, led := s'.led } ∧
    Grows w { w with rew := upd w.rew R s'.st, led := s'.led } := by
  have hne : w.code R ≠ .none := by rw [hR]; simp
  have hna := i.core.contracts R hne
  have hf := i.core.auth_false hc hne hi
  have A := i.core.at_ R hna
  have S' := Rewards.step_inv e hf A.rew
  have n1 : w.xyk R = none := by
    cases hs : w.xyk R with
    | none => rfl
    | some q => have := (i.refs.xyk R q hs).1; rw [hR] at this; simp at this
  have n2 : w.stable R = none := by
    cases hs : w.stable R with
    | none => rfl
    | some q => have := (i.refs.stable R q hs).1; rw [hR] at this; simp at this
  have n4 : w.vest R = none := by
    cases hs : w.vest R with
    | none => rfl
    | some q => have := i.refs.vest R q hs; rw [hR] at this; simp at this
  have n3 : w.stake R = Stake.fresh := i.refs.stake R (by rw [hR]; simp)
  have g : Grows w { w with rew := upd w.rew R s'.st, led := s'.led } := by
    refine { Grows.refl w with rew := fun Q r hr => ?_ }
    simp only [upd_apply]
    by_cases eQ : Q = R
    · subst eQ; simp only [if_true]; exact Rewards.step_cfg e hr
    · simp only [eQ, if_false]; exact ⟨hr, trivial⟩
  refine ⟨⟨?_, ?_⟩, g⟩
  · refine i.core.acts (fun a => a = R) rfl (fun a ha => ?_) ?_ (fun a ha _ => ?_)
    · simp only [upd_ne _ _ ha]; trivial
    · exact (Rewards.step_moves e).mono (by_acct hc R) (fun _ k => k)
    · subst ha
      unfold AtW
      simp only [upd_same, n1, n2, n3, n4]
      exact ⟨pool_none S'.led, stable_none S'.led, stake_fresh S'.led, vest_none S'.led, S'⟩
  · refine i.refs.grows g (fun Q r hr hn => ?_) (fun Q r hr hn => ?_) (fun Q => .inl rfl) (fun Q r hr hn => ?_)
      (fun F f hf => .inl ⟨f, hf, rfl, rfl, rfl, rfl⟩) (fun Q r hr hn => ?_) (fun Q r hr hn => ?_) (fun Q => ?_)
    rotate_right
    · by_cases eQ : Q = R
      · subst eQ; exact .inr hR
      · exact .inl (upd_ne _ _ eQ)
    all_goals (simp only at hr; rw [hn] at hr; simp at hr)

/-- A direct token call. -/
theorem token_step {tok : Addr} {op : TokenOp} {L : Ledger} (i : Inv h acct w) (hc : Signed acct c)
    (hi : c.invoker = none) (ht : w.code tok = .token) (e : w.led.call c tok op = .ok L) :
    Inv h acct { w with led := L } ∧ Grows w { w with led := L } := by
  have g : Grows w { w with led := L } := { Grows.refl w with }
  refine ⟨⟨?_, ?_⟩, g⟩
  · refine i.core.acts (fun _ => False) rfl (fun a _ => ⟨rfl, rfl, rfl, rfl, rfl⟩) ?_ (fun a ha _ => ha.elim)
    refine .one e (fun a k => .inl (hc a ?_)) (.inl (by simp [ht]))
    simpa [Ctx.auth, hi] using k
  · refine i.refs.grows g (fun Q r hr hn => ?_) (fun Q r hr hn => ?_) (fun Q => .inl rfl) (fun Q r hr hn => ?_)
      (fun F f hf => .inl ⟨f, hf, rfl, rfl, rfl, rfl⟩) (fun Q r hr hn => ?_) (fun Q r hr hn => ?_)
    all_goals (simp only at hr; rw [hn] at hr; simp at hr)

/-- The trader moves its own tokens. -/
theorem trader_step {T tok d : Addr} {x : Int} {L : Ledger} (i : Inv h acct w) (hc : Signed acct c)
    (hT : w.code T = .trader) (e : w.led.transfer (c.as T) tok T d x = .ok L) :
    Inv h acct { w with led := L } ∧ Grows w { w with led := L } := by
  have g : Grows w { w with led := L } := { Grows.refl w with }
  have hna := i.core.contracts T (by rw [hT]; simp)
  have n1 : w.xyk T = none := by
    cases hs : w.xyk T with
    | none => rfl
    | some q => have := (i.refs.xyk T q hs).1; rw [hT] at this; simp at this
  have n2 : w.stable T = none := by
    cases hs : w.stable T with
    | none => rfl
    | some q => have := (i.refs.stable T q hs).1; rw [hT] at this; simp at this
  have n4 : w.vest T = none := by
    cases hs : w.vest T with
    | none => rfl
    | some q => have := i.refs.vest T q hs; rw [hT] at this; simp at this
  have n3 : w.stake T = Stake.fresh := i.refs.stake T (by rw [hT]; simp)
  have n5 : w.rew T = Rewards.fresh := i.refs.rew T (by rw [hT]; simp)
  refine ⟨⟨?_, ?_⟩, g⟩
  · refine i.core.acts (fun a => a = T) rfl (fun a _ => ⟨rfl, rfl, rfl, rfl, rfl⟩) ?_ (fun a ha _ => ?_)
    · exact (Moves.transfer e).mono (by_acct hc T) (fun _ k => k)
    · subst ha
      obtain ⟨-, h1, h2, h3, h4⟩ := Ledger.transfer_inv e
      have hL := Vesting.settles_ledInv (i.core.at_ a hna).led h1 h2 h3 h4
      unfold AtW
      simp only [n1, n2, n3, n4, n5]
      exact ⟨pool_none hL, stable_none hL, stake_fresh hL, vest_none hL, rew_fresh hL⟩
  · refine i.refs.grows g (fun Q r hr hn => ?_) (fun Q r hr hn => ?_) (fun Q => .inl rfl) (fun Q r hr hn => ?_)
      (fun F f hf => .inl ⟨f, hf, rfl, rfl, rfl, rfl⟩) (fun Q r hr hn => ?_) (fun Q r hr hn => ?_)
    all_goals (simp only at hr; rw [hn] at hr; simp at hr)

end Phoenix.World
