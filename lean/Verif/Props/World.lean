import Verif.Lemmas.WorldFac
import Verif.Spec.WorldExample
/-!
Property theorems about the whole protocol: C43, C44 (factory), C76 (everything is backed),
C77 (no account loses tokens without signing), C78 (what a created pool is connected to),
C79 (separation of contracts).

A history is any list of transactions by anybody, on any of the contracts: tokens, pools, stake
and vesting contracts, factories, routers, traders.
-/
namespace Phoenix.Props.World
open Phoenix Phoenix.World Phoenix.World.Spec

variable {h : Host} {acct : Accounts} {w0 : World}

theorem run_append (h : Host) (w : World) (ts us : List Tx) : run h w (ts ++ us) = run h (run h w ts) us := by
  simp [run]

/-! The concrete ledger of Verif.Spec.WorldExample meets all hypotheses. -/

theorem ex_host : HostOK Example.host Example.acct := by
  exact ⟨fun (F a b : Nat) => (by omega : ¬ (100000 + F * 10000 + a * 100 + b < 20)),
    fun (F _ : Nat) => (by omega : ¬ (5000 + F < 20)),
    fun (P a b : Nat) => (by omega : ¬ (P + a + b + 10000000 < 20)),
    fun (P : Nat) => (by omega : ¬ (P + 20000000 < 20)),
    fun (P a b : Nat) => (by omega : P + a + b + 10000000 ≠ a ∧ P + a + b + 10000000 ≠ b)⟩

theorem ex_genesis : Genesis Example.acct Example.start := by
  refine ⟨fun _ => rfl, fun _ => rfl, fun _ => rfl, fun _ => rfl, fun _ => rfl, fun _ => rfl, fun _ => rfl,
    fun _ => rfl, ?_, ?_, ?_, fun a _ t sp => le_refl _⟩
  · intro a ha
    intro (hlt : a < 20)
    apply ha
    have k : ∀ n : Nat, 20 ≤ n → a ≠ n := fun n hn e => absurd hlt (Nat.not_lt.mpr (e ▸ hn))
    simp [Example.start, k]
  · intro t a
    simp only [Example.start, Ledger.bal]
    split <;> decide
  · intro t ht a
    simp only [Example.start, Ledger.bal] at *
    split at ht
    · simp at ht
    · rename_i k; rw [if_neg (by tauto)]

theorem possible_by {a : Addr} {k : Call} (ha : a < 20) : Possible Example.acct ⟨Example.by' a, k⟩ := by
  refine ⟨rfl, fun b hb => ?_⟩
  simp only [Example.by', beq_iff_eq] at hb
  subst hb; exact ha

theorem ex_setup : ∀ t ∈ Example.setup ++ Example.liquidity, Possible Example.acct t := by
  intro t ht
  simp only [Example.setup, Example.liquidity, List.cons_append, List.nil_append, List.mem_cons, List.not_mem_nil, or_false] at ht
  rcases ht with rfl | rfl | rfl | rfl | rfl | rfl | rfl <;> exact possible_by (by decide)

theorem ex_created : created Example.host 50 Example.start (Example.setup ++ Example.liquidity) =
    [⟨20, 21, Example.pool1⟩, ⟨21, 22, Example.pool2⟩] := by decide +kernel

/-! ### C43 -/

/-- **C43** In every reachable state, `query_pools` of a factory lists exactly the pools created
through it, in the order of creation, and no pool twice. -/
theorem C43_pools_exact (hh : HostOK h acct) (g : Genesis acct w0) {ts : List Tx} (hp : ∀ t ∈ ts, Possible acct t)
    {F : Addr} {l : List Addr} (hq : queryPools (run h w0 ts) F = .ok l) :
    l = (created h F w0 ts).map (·.pool) ∧ l.Nodup := by
  obtain ⟨I, -⟩ := run_inv hh (Phoenix.World.genesis_inv (h := h) g) hp
  obtain ⟨a1, -⟩ := run_fac hh F (Phoenix.World.genesis_inv (h := h) g) hp
  unfold queryPools at hq
  simp only [bind_ok, ok_inj] at hq
  obtain ⟨_, -, f, hf, rfl⟩ := hq
  have hf := fac_loaded hf
  refine ⟨?_, (I.refs.fac F f hf).nodup⟩
  have e0 : regPools w0 F = [] := by unfold regPools; rw [g.fac]
  have e1 : regPools (run h w0 ts) F = f.pools := by unfold regPools; rw [hf]
  rw [← e1, a1, e0, List.nil_append]

/-- **C43** In every reachable state, `query_for_pool_by_token_pair(a, b)` answers `P` exactly if
`P` was created through this factory for the tokens `a`, `b` in one of the two orders.  In
particular it fails for pairs never created. -/
theorem C43_lookup_iff (hh : HostOK h acct) (g : Genesis acct w0) {ts : List Tx} (hp : ∀ t ∈ ts, Possible acct t)
    (F a b P : Addr) :
    findPool (run h w0 ts) F a b = .ok P ↔
      ⟨a, b, P⟩ ∈ created h F w0 ts ∨ ⟨b, a, P⟩ ∈ created h F w0 ts := by
  obtain ⟨I, -⟩ := run_inv hh (Phoenix.World.genesis_inv (h := h) g) hp
  obtain ⟨-, a2⟩ := run_fac hh F (Phoenix.World.genesis_inv (h := h) g) hp
  have e0 : ∀ x y, regPair w0 F x y = none := by intro x y; unfold regPair; rw [g.fac]
  simp only [e0, reduceCtorEq, false_or] at a2
  rw [← a2, ← a2]
  unfold findPool
  simp only [bind_ok, expect_ok]
  constructor
  · rintro ⟨_, -, f, hf, hl⟩
    have hf := fac_loaded hf
    simp only [regPair, hf]
    unfold Factory.lookup Factory.lookupReverted at hl
    split at hl
    · rw [ok_inj] at hl; subst hl; left; assumption
    · split at hl
      · rw [ok_inj] at hl; subst hl; right; assumption
      · simp at hl
  · intro k
    cases hf : (run h w0 ts).fac F with
    | none => simp [regPair, hf] at k
    | some f =>
      have hfo := I.refs.fac F f hf
      refine ⟨(), hfo.code, f, rfl, ?_⟩
      simp only [regPair, hf] at k
      unfold Factory.lookup Factory.lookupReverted
      rcases k with k | k
      · rw [k]
      · cases e : f.pair a b with
        | none => simp only [k]
        | some Q =>
          have h1 := (hfo.pair _ _ _ k).1
          have h2 := (hfo.pair _ _ _ e).1
          exact absurd h1 (Nat.lt_asymm h2)

/-- **C43** The lookup does not depend on the order of the two tokens. -/
theorem C43_lookup_symmetric (hh : HostOK h acct) (g : Genesis acct w0) {ts : List Tx} (hp : ∀ t ∈ ts, Possible acct t)
    (F a b P : Addr) : findPool (run h w0 ts) F a b = .ok P ↔ findPool (run h w0 ts) F b a = .ok P := by
  rw [C43_lookup_iff hh g hp, C43_lookup_iff hh g hp, or_comm]

/-- **C43** A pool created by `create_liquidity_pool` is found for its tokens in both orders,
now and after any further history, and it stays a pool for these tokens. -/
theorem C43_created_found (hh : HostOK h acct) (g : Genesis acct w0) {ts us : List Tx} (hp : ∀ t ∈ ts, Possible acct t)
    (hu : ∀ t ∈ us, Possible acct t) {c : Ctx} {F sender : Addr} {i : Info} {k : Kind} {amp : Option Nat} {sl mf : Int}
    (hc : Possible acct ⟨c, .create F sender i k amp sl mf⟩) (hF : (run h w0 ts).code F = .factory)
    {w' : World} {P : Addr} (e : create h (run h w0 ts) c F sender i k amp sl mf = .ok (w', P)) :
    findPool (run h w' us) F i.tokenA i.tokenB = .ok P ∧ findPool (run h w' us) F i.tokenB i.tokenA = .ok P ∧
    PoolFor (run h w' us) P i.tokenA i.tokenB := by
  obtain ⟨I, -⟩ := run_inv hh (Phoenix.World.genesis_inv (h := h) g) hp
  obtain ⟨I1, g1, f, cr, -⟩ := create_step hh I hF e
  obtain ⟨I2, g2⟩ := run_inv hh (ts := us) I1 hu
  have hst : step h (run h w0 ts) c (.create F sender i k amp sl mf) = .ok w' := by
    simp only [step, bind_ok, expect_ok, ok_inj, Prod.exists]
    exact ⟨(), hF, w', P, e, rfl⟩
  have hrun : run h w0 (ts ++ ⟨c, .create F sender i k amp sl mf⟩ :: us) = run h w' us := by
    rw [run_append]
    show run h (exec h (run h w0 ts) _) us = _
    unfold exec; rw [hst]
  have hall : ∀ t ∈ ts ++ ⟨c, .create F sender i k amp sl mf⟩ :: us, Possible acct t := by
    intro t ht
    rcases List.mem_append.mp ht with q | q
    · exact hp t q
    · rcases List.mem_cons.mp q with rfl | q
      · exact hc
      · exact hu t q
  have hpair : regPair w' F i.tokenA i.tokenB = some P := by
    unfold regPair; rw [cr.fac, upd_same]; simp only [upd_same]
  have hmem : ⟨i.tokenA, i.tokenB, P⟩ ∈ created h F w0 (ts ++ ⟨c, .create F sender i k amp sl mf⟩ :: us) := by
    have := (run_fac hh F (Phoenix.World.genesis_inv (h := h) g) hall).2 i.tokenA i.tokenB P
    rw [hrun] at this
    have e0 : ∀ x y, regPair w0 F x y = none := by intro x y; unfold regPair; rw [g.fac]
    simp only [e0, reduceCtorEq, false_or] at this
    rw [← this]
    obtain ⟨f', hf', -, -, keep, -⟩ := g2.fac F _ (by rw [cr.fac, upd_same])
    unfold regPair; rw [hf']; exact keep _ _ _ (by simp only [upd_same])
  rw [← hrun]
  refine ⟨(C43_lookup_iff hh g hall _ _ _ _).mpr (.inl hmem), (C43_lookup_iff hh g hall _ _ _ _).mpr (.inr hmem), ?_⟩
  rw [hrun]; exact poolFor_grows g2 cr.pool

/-- **C43** One pool per pair: once a factory knows a pool for a pair of tokens, every attempt to
create another one for the pair fails, for ever, whatever its kind. -/
theorem C43_one_pool_per_pair (hh : HostOK h acct) (g : Genesis acct w0) {ts us : List Tx} (hp : ∀ t ∈ ts, Possible acct t)
    (hu : ∀ t ∈ us, Possible acct t) {F P : Addr} {i : Info}
    (hfound : findPool (run h w0 ts) F i.tokenA i.tokenB = .ok P)
    (c : Ctx) (sender : Addr) (k : Kind) (amp : Option Nat) (sl mf : Int) :
    exec h (run h (run h w0 ts) us) ⟨c, .create F sender i k amp sl mf⟩ = run h (run h w0 ts) us := by
  have hall : ∀ t ∈ ts ++ us, Possible acct t := by
    intro t ht
    rcases List.mem_append.mp ht with q | q
    exacts [hp t q, hu t q]
  obtain ⟨I, -⟩ := run_inv hh (Phoenix.World.genesis_inv (h := h) g) hp
  obtain ⟨I2, g2⟩ := run_inv hh (ts := us) I hu
  unfold exec
  split
  · rename_i w' e
    exfalso
    simp only [step, bind_ok, expect_ok, ok_inj, Prod.exists] at e
    obtain ⟨_, hF, w1, Q, e, rfl⟩ := e
    obtain ⟨-, -, f, cr, -⟩ := create_step hh I2 hF e
    unfold findPool at hfound
    simp only [bind_ok, expect_ok] at hfound
    obtain ⟨_, -, f0, hf0, hl⟩ := hfound
    have hf0 := fac_loaded hf0
    have h1 : f0.pair i.tokenA i.tokenB = some P := by
      unfold Factory.lookup Factory.lookupReverted at hl
      split at hl
      · rw [ok_inj] at hl; subst hl; assumption
      · split at hl
        · rename_i hr
          exact absurd ((I.refs.fac F f0 hf0).pair _ _ _ hr).1 (Nat.lt_asymm cr.lt)
        · simp at hl
    obtain ⟨f1, hf1, -, -, keep, -⟩ := g2.fac F f0 hf0
    obtain ⟨-, e1, e2, -⟩ := (I2.refs.fac F f1 hf1).pair _ _ _ (keep _ _ _ h1)
    have := cr.free
    rw [cr.addr, ← e1] at this
    rcases e2 with ⟨k, -⟩ | ⟨k, -⟩ <;> rw [this] at k <;> simp at k
  · rfl

example : queryPools (run Example.host Example.start (Example.setup ++ Example.liquidity)) 50 =
      .ok [Example.pool1, Example.pool2] ∧
    findPool (run Example.host Example.start (Example.setup ++ Example.liquidity)) 50 22 21 = .ok Example.pool2 ∧
    findPool (run Example.host Example.start (Example.setup ++ Example.liquidity)) 50 20 22 = .error (.code 4) := by
  decide +kernel

/-! ### C44 -/

/-- **C44** `create_liquidity_pool` succeeds only for an authorising sender on the whitelist, with
ordered tokens, positive stake minimums and all fees between 0 and 100%. -/
theorem C44_create_requires {w w' : World} {c : Ctx} {F sender P : Addr} {i : Info} {k : Kind} {amp : Option Nat} {sl mf : Int}
    (e : create h w c F sender i k amp sl mf = .ok (w', P)) :
    c.auth sender = true ∧ (∃ f, w.fac F = some f ∧ sender ∈ f.whitelist) ∧
    i.tokenA < i.tokenB ∧ 0 < i.minBond ∧ 0 < i.minReward ∧ (k = .stable → amp ≠ none) ∧
    (0 ≤ i.swapFeeBps ∧ i.swapFeeBps ≤ 10000) ∧ (0 ≤ i.maxSlippageBps ∧ i.maxSlippageBps ≤ 10000) ∧
    (0 ≤ i.maxSpreadBps ∧ i.maxSpreadBps ≤ 10000) ∧ (0 ≤ i.maxReferralBps ∧ i.maxReferralBps ≤ 10000) ∧
    (0 ≤ sl ∧ sl ≤ 10000) ∧ (0 ≤ mf ∧ mf ≤ 10000) ∧ w.code P = .none := by
  unfold create at e
  simp only [bind_ok, req_ok, ok_inj, requireAuth_ok, deploy_ok, validateTokenInfo, validatePoolInfo, validateBps_ok,
    Prod.mk.injEq] at e
  obtain ⟨_, ha, _, hk, f, hf, _, hwl, _, ⟨_, hlt, _, hb, hr⟩, w1, ⟨hP, rfl⟩, _, b1, _, b2, _, b3, _, b4, _, b5, _, b6, w2, hi,
    rfl, rfl⟩ := e
  refine ⟨ha, ⟨f, fac_loaded hf, hwl⟩, hlt, hb, hr, fun e => ?_, b1, b2, b3, b4, b5, b6, hP⟩
  have := hk e
  rintro rfl; simp at this

/-- **C44** The factory's whitelist, code hashes and decimals change only in a transaction signed by
its admin; and the admin and the router never change. -/
theorem C44_settings_by_admin (hh : HostOK h acct) (g : Genesis acct w0) {ts : List Tx} (hp : ∀ t ∈ ts, Possible acct t)
    {F : Addr} {f : Factory.State} (hf : (run h w0 ts).fac F = some f) {t : Tx} (ht : Possible acct t) :
    ∃ f', (exec h (run h w0 ts) t).fac F = some f' ∧ f'.admin = f.admin ∧ f'.multihop = f.multihop ∧
      ((f'.whitelist ≠ f.whitelist ∨ f'.lpHash ≠ f.lpHash ∨ f'.stableHash ≠ f.stableHash ∨ f'.stakeHash ≠ f.stakeHash ∨
        f'.tokenHash ≠ f.tokenHash ∨ f'.lpDecimals ≠ f.lpDecimals) → t.ctx.signed f.admin = true) := by
  obtain ⟨I, -⟩ := run_inv hh (Phoenix.World.genesis_inv (h := h) g) hp
  obtain ⟨-, gr⟩ := exec_inv hh I ht
  obtain ⟨f', hf', e1, e2, -⟩ := gr.fac F f hf
  refine ⟨f', hf', e1, e2, fun hne => ?_⟩
  by_contra hs
  have hs : t.ctx.signed f.admin = false := by simpa using hs
  unfold exec at hf'
  split at hf'
  · rename_i w' e
    rcases step_settings hh I ht.1 e F with k | ⟨f0, f1, h0, h1, k⟩ | ⟨f0, h0, k⟩ | k
    · rw [k, hf] at hf'; cases hf'; simp at hne
    · rw [hf] at h0; cases h0
      rw [hf'] at h1; cases h1
      obtain ⟨k1, k2, k3, k4, k5, k6⟩ := k
      simp [k1, k2, k3, k4, k5, k6] at hne
    · rw [hf] at h0; cases h0; rw [hs] at k; simp at k
    · rw [hf] at k; simp at k
  · rw [hf] at hf'; cases hf'; simp at hne
where
  step_settings {h : Host} {acct : Accounts} {w w' : World} {c : Ctx} {k : Call} (hh : HostOK h acct) (I : Inv h acct w)
      (hi : c.invoker = none) (e : step h w c k = .ok w') (F : Addr) :
      w'.fac F = w.fac F ∨
      (∃ f f', w.fac F = some f ∧ w'.fac F = some f' ∧ f'.whitelist = f.whitelist ∧ f'.lpHash = f.lpHash ∧
        f'.stableHash = f.stableHash ∧ f'.stakeHash = f.stakeHash ∧ f'.tokenHash = f.tokenHash ∧ f'.lpDecimals = f.lpDecimals) ∨
      (∃ f, w.fac F = some f ∧ c.signed f.admin = true) ∨ w.fac F = none := by
    have hau : ∀ a, c.auth a = true → c.signed a = true := by intro a ha; simpa [Ctx.auth, hi] using ha
    cases k with
    | token tok op =>
      simp only [step, bind_ok, ok_inj, expect_ok] at e
      obtain ⟨_, h1, L, h2, rfl⟩ := e
      exact .inl rfl
    | xykInit P i owner dec sl mf =>
      simp only [step, bind_ok, expect_ok] at e
      obtain ⟨_, h1, h2⟩ := e
      obtain ⟨-, -, a, -⟩ := initXyk_step hh I h1 h2
      exact .inl (by rw [a])
    | xyk P k =>
      cases k with
      | init i => simp [step] at e
      | _ =>
        simp only [step, bind_ok, ok_inj, expect_ok] at e
        obtain ⟨_, h1, s, h2, rfl⟩ := e
        exact .inl rfl
    | stableInit P i owner amp mf =>
      simp only [step, bind_ok, expect_ok] at e
      obtain ⟨_, h1, h2⟩ := e
      obtain ⟨-, -, a, -⟩ := initStable_step hh I h1 h2
      exact .inl (by rw [a])
    | stable P k =>
      cases k with
      | init i => simp [step] at e
      | _ =>
        simp only [step, bind_ok, ok_inj, expect_ok] at e
        obtain ⟨_, h1, s, h2, rfl⟩ := e
        exact .inl rfl
    | stake K k =>
      simp only [step, bind_ok, ok_inj, expect_ok] at e
      obtain ⟨_, h1, s, h2, rfl⟩ := e
      exact .inl rfl
    | vest V k =>
      cases k with
      | mint a x =>
        simp only [step, bind_ok, ok_inj, expect_ok] at e
        obtain ⟨_, h1, v, hv, _, ht, s, h2, rfl⟩ := e
        exact .inl rfl
      | _ =>
        simp only [step, bind_ok, ok_inj, expect_ok] at e
        obtain ⟨_, h1, s, h2, rfl⟩ := e
        exact .inl rfl
    | facInit F' admin a b d e' wl dec =>
      simp only [step, facInit, bind_ok, expect_ok, deploy_ok, ok_inj, req_ok] at e
      obtain ⟨_, h1, _, h3, _, -, w1, ⟨-, rfl⟩, m, -, rfl⟩ := e
      by_cases ef : F = F'
      · subst ef; exact .inr (.inr (.inr (by simpa using h3)))
      · exact .inl (by simp only [upd_ne _ _ ef])
    | create F' sender i k amp sl mf =>
      simp only [step, bind_ok, ok_inj, expect_ok, Prod.exists] at e
      obtain ⟨_, h1, w1, P, h2, rfl⟩ := e
      obtain ⟨-, -, f, a, -⟩ := create_step hh I h1 h2
      by_cases ef : F = F'
      · subst ef
        have k := a.fac ▸ upd_same w.fac F _
        exact .inr (.inl ⟨f, _, a.old, k, rfl, rfl, rfl, rfl, rfl, rfl⟩)
      · exact .inl (by rw [a.fac, upd_ne _ _ ef])
    | whitelist F' sender add rem =>
      simp only [step, bind_ok, ok_inj, expect_ok, Factory.updateWhitelist, requireAuth_ok, req_ok] at e
      obtain ⟨_, h1, f, hf, f', ⟨_, ha, _, hs, rfl⟩, rfl⟩ := e
      by_cases ef : F = F'
      · subst ef; exact .inr (.inr (.inl ⟨f, fac_loaded hf, by rw [hs]; exact hau _ ha⟩))
      · exact .inl (by simp only [upd_ne _ _ ef])
    | hashes F' a b d =>
      simp only [step, bind_ok, ok_inj, expect_ok, Factory.updateHashes, requireAuth_ok] at e
      obtain ⟨_, h1, f, hf, f', ⟨_, ha, rfl⟩, rfl⟩ := e
      by_cases ef : F = F'
      · subst ef; exact .inr (.inr (.inl ⟨f, fac_loaded hf, hau _ ha⟩))
      · exact .inl (by simp only [upd_ne _ _ ef])
    | facUpdate F' a =>
      simp only [step, bind_ok, ok_inj, expect_ok, Factory.update, requireAuth_ok] at e
      obtain ⟨_, h1, f, hf, f', ⟨_, ha, rfl⟩, rfl⟩ := e
      by_cases ef : F = F'
      · subst ef; exact .inr (.inr (.inl ⟨f, fac_loaded hf, hau _ ha⟩))
      · exact .inl (by simp only [upd_ne _ _ ef])
    | hopInit H admin F =>
      simp only [step, bind_ok, ok_inj, expect_ok] at e
      obtain ⟨_, h1, m, -, rfl⟩ := e
      exact .inl rfl
    | hopSwap H recipient ops sp amount dl mf =>
      simp only [step, hopSwap, bind_ok, ok_inj, expect_ok, Prod.exists] at e
      obtain ⟨_, h1, w1, r, ⟨_, _, _, _, _, _, m, hm, h2⟩, rfl⟩ := e
      exact .inl (by rw [hopLoop_fac (H := H) h2])
    | trdInit T admin a b o =>
      simp only [step, bind_ok, ok_inj, expect_ok] at e
      obtain ⟨_, h1, t, -, rfl⟩ := e
      exact .inl rfl
    | trade T sender token pool amount sp dl mi mf =>
      simp only [step, trade, bind_ok, ok_inj, expect_ok, Prod.exists] at e
      obtain ⟨_, h1, w1, r, ⟨_, _, t, ht, _, _, _, _, _, _, h2⟩, rfl⟩ := e
      exact .inl (by rw [poolSwap_fac h2])
    | trdTransfer T sender recipient amount token =>
      simp only [step, bind_ok, ok_inj, expect_ok, Trader.transfer] at e
      obtain ⟨_, h1, t, ht, L, ⟨_, _, _, _, h2⟩, rfl⟩ := e
      exact .inl rfl
    | rewards R k =>
      simp only [step, bind_ok, ok_inj, expect_ok] at e
      obtain ⟨_, h1, s, h2, rfl⟩ := e
      exact .inl rfl

theorem addAll_count (x : Addr) : ∀ (add l : List Addr),
    (Factory.addAll l add).count x = if x ∈ l then l.count x else if x ∈ add then 1 else 0
  | [], l => by
    simp only [Factory.addAll, List.not_mem_nil, if_false]
    split
    · rfl
    · rename_i k; exact List.count_eq_zero.mpr k
  | a :: add, l => by
    simp only [Factory.addAll]
    rw [addAll_count x add]
    by_cases hal : a ∈ l
    · simp only [hal, if_true]
      by_cases hx : x ∈ l
      · simp only [hx, if_true]
      · have : x ≠ a := by rintro rfl; exact hx hal
        simp only [hx, if_false, List.mem_cons, this, false_or]
    · simp only [hal, if_false, List.mem_append, List.mem_singleton, List.count_append, List.mem_cons]
      by_cases e : x = a
      · subst e
        simp [hal]
        exact List.count_eq_zero.mpr hal
      · have e' : ¬ a = x := fun k => e k.symm
        by_cases hx : x ∈ l
        · simp [hx, e']
        · simp [hx, e]

theorem removeAll_count (x : Addr) : ∀ (rem l : List Addr), (Factory.removeAll l rem).count x = l.count x - rem.count x
  | [], l => by simp [Factory.removeAll]
  | a :: rem, l => by
    simp only [Factory.removeAll]
    rw [removeAll_count x rem, List.count_erase, List.count_cons]
    by_cases e : a = x
    · subst e; simp; omega
    · have : (a == x) = false := by simpa using e
      simp [this]

/-- **C44** `update_whitelisted_accounts` requires the admin's authorisation.  How often an address
then occurs on the whitelist: the occurrences it had before, or one if it was not there and is in
`to_add`; minus its occurrences in `to_remove`. -/
theorem C44_whitelist_update {c : Ctx} {f f' : Factory.State} {sender : Addr} {add rem : List Addr}
    (e : Factory.updateWhitelist c f sender add rem = .ok f') :
    sender = f.admin ∧ c.auth f.admin = true ∧
    (∀ x, f'.whitelist.count x =
      (if x ∈ f.whitelist then f.whitelist.count x else if x ∈ add then 1 else 0) - rem.count x) ∧
    (f.whitelist.Nodup → f'.whitelist.Nodup ∧
      ∀ x, x ∈ f'.whitelist ↔ (x ∈ f.whitelist ∨ x ∈ add) ∧ x ∉ rem) ∧
    f' = { f with whitelist := f'.whitelist } := by
  unfold Factory.updateWhitelist at e
  simp only [bind_ok, requireAuth_ok, req_ok, ok_inj] at e
  obtain ⟨_, ha, _, hs, rfl⟩ := e
  have cnt : ∀ x, (Factory.removeAll (Factory.addAll f.whitelist add) rem).count x =
      (if x ∈ f.whitelist then f.whitelist.count x else if x ∈ add then 1 else 0) - rem.count x := by
    intro x; rw [removeAll_count, addAll_count]
  refine ⟨hs.symm, by rw [hs]; exact ha, cnt, fun hn => ⟨?_, fun x => ?_⟩, rfl⟩
  · rw [List.nodup_iff_count_le_one]
    intro x
    simp only
    rw [cnt]
    have := List.nodup_iff_count_le_one.mp hn x
    split
    · omega
    · split <;> omega
  · simp only
    rw [← List.count_pos_iff, cnt]
    have h1 := List.nodup_iff_count_le_one.mp hn x
    by_cases hx : x ∈ f.whitelist
    · have h2 := List.count_pos_iff.mpr hx
      simp only [hx, if_true, true_or, true_and, ← List.count_pos_iff (l := rem)]
      omega
    · simp only [hx, if_false, false_or]
      by_cases hy : x ∈ add
      · simp only [hy, if_true, true_and, ← List.count_pos_iff (l := rem)]; omega
      · simp [hy]

/-- The whitelist may be emptied, or start with duplicates: then one removal is not enough. -/
example : ∃ f f' : Factory.State, f.whitelist = [3, 3] ∧
    Factory.updateWhitelist (Example.by' 8) f 8 [] [3] = .ok f' ∧ 3 ∈ f'.whitelist :=
  ⟨⟨8, 1, 1, 1, 1, 1, [3, 3], 7, [], fun _ _ => none⟩, ⟨8, 1, 1, 1, 1, 1, [3], 7, [], fun _ _ => none⟩, rfl, rfl, by simp⟩

example : ((run Example.host Example.start (Example.setup ++ [⟨Example.by' 8, .whitelist 50 8 [3, 4] [4, 8]⟩])).fac 50).map
    (·.whitelist) = some [3] := by decide +kernel

/-! ### C76 -/

/-- **C76** In every history of the whole protocol every pool, of either kind, holds its reported
reserves, and its LP supply covers all LP balances. -/
theorem C76_pools_backed (hh : HostOK h acct) (g : Genesis acct w0) {ts : List Tx} (hp : ∀ t ∈ ts, Possible acct t) :
    (∀ P p, (run h w0 ts).xyk P = some p →
      (0 ≤ p.resA ∧ p.resA ≤ (run h w0 ts).led.bal p.cfg.tokenA P) ∧
      (0 ≤ p.resB ∧ p.resB ≤ (run h w0 ts).led.bal p.cfg.tokenB P) ∧
      ∀ S : Finset Addr, ∑ a ∈ S, (run h w0 ts).led.bal p.cfg.shareToken a ≤ p.total) ∧
    (∀ P p, (run h w0 ts).stable P = some p →
      (0 ≤ p.resA ∧ p.resA ≤ (run h w0 ts).led.bal p.cfg.tokenA P) ∧
      (0 ≤ p.resB ∧ p.resB ≤ (run h w0 ts).led.bal p.cfg.tokenB P) ∧
      ∀ S : Finset Addr, ∑ a ∈ S, (run h w0 ts).led.bal p.cfg.shareToken a ≤ p.total) := by
  obtain ⟨I, -⟩ := run_inv hh (Phoenix.World.genesis_inv (h := h) g) hp
  refine ⟨fun P p hP => ?_, fun P p hP => ?_⟩
  · have nP := I.core.contracts P (by rw [(I.refs.xyk P p hP).1]; simp)
    have k := (I.core.at_ P nP).xyk.pool p hP
    exact ⟨⟨k.a0, k.aB⟩, ⟨k.b0, k.bB⟩, k.cover⟩
  · have nP := I.core.contracts P (by rw [(I.refs.stable P p hP).1]; simp)
    have k := (I.core.at_ P nP).stable.pool p hP
    exact ⟨⟨k.a0, k.aB⟩, ⟨k.b0, k.bB⟩, k.cover⟩

/-- **C76** In every history of the whole protocol every stake contract holds the reported total
staked, as long as its LP token is not one of its reward tokens; and every vesting contract holds
what it owes on any set of schedules. -/
theorem C76_stakes_and_vestings_backed (hh : HostOK h acct) (g : Genesis acct w0) {ts : List Tx}
    (hp : ∀ t ∈ ts, Possible acct t) :
    (∀ K lp, Stake.Spec.lp? ⟨(run h w0 ts).stake K, (run h w0 ts).led⟩ = some lp →
      lp ∉ ((run h w0 ts).stake K).dists →
      ((run h w0 ts).stake K).total ≤ (run h w0 ts).led.bal lp K) ∧
    (∀ V v, (run h w0 ts).vest V = some v → ∀ S : Finset (Addr × Nat),
      Vesting.Spec.owed ⟨(run h w0 ts).vest V, (run h w0 ts).led⟩ S ≤ (run h w0 ts).led.bal v.token V) := by
  obtain ⟨I, -⟩ := run_inv hh (Phoenix.World.genesis_inv (h := h) g) hp
  refine ⟨fun K lp hlp hd => ?_, fun V v hV S => ?_⟩
  · unfold Stake.Spec.lp? at hlp
    obtain ⟨cfg, hc, rfl⟩ := Option.map_eq_some_iff.mp hlp
    have nK : ¬ acct K := by
      apply I.core.contracts K
      intro e
      have := I.refs.stake K (by rw [e]; simp)
      simp only at hc
      rw [this] at hc; simp [Stake.fresh] at hc
    exact (I.core.at_ K nK).stake.lp cfg hc hd
  · have nV := I.core.contracts V (by rw [I.refs.vest V v hV]; simp)
    have := (I.core.at_ V nV).vest.backed v hV S
    rw [Vesting.owed_some hV]; exact this

example : ((run Example.host Example.start (Example.setup ++ Example.liquidity)).xyk Example.pool1).map
      (fun p => (p.total, p.resA, p.resB)) = some (1414213, 1000000, 2000000) ∧
    ((run Example.host Example.start (Example.setup ++ Example.liquidity)).stable Example.pool2).map
      (fun p => (p.total, p.resA, p.resB)) = some (1999000, 1000000, 1000000) := by decide +kernel

/-- **C76** In every history of the whole protocol every reward contract holds at least what it has
handed out to stakers and not yet paid: the query for what is still to be handed out never fails. -/
theorem C76_rewards_backed (hh : HostOK h acct) (g : Genesis acct w0) {ts : List Tx}
    (hp : ∀ t ∈ ts, Possible acct t) {R : Addr} {cfg : Rewards.Config}
    (hc : Rewards.queryConfig ((run h w0 ts).rew R) = .ok cfg) :
    ∃ u, Rewards.queryUndistributed R ((run h w0 ts).rew R) (run h w0 ts).led cfg.token = .ok u := by
  obtain ⟨I, -⟩ := run_inv hh (Phoenix.World.genesis_inv (h := h) g) hp
  have hc' : ((run h w0 ts).rew R).cfg = some cfg := Rewards.getConfig_ok.mp hc
  have nR : ¬ acct R := by
    apply I.core.contracts R
    intro e
    have := I.refs.rew R (by rw [e]; simp)
    rw [this] at hc'; simp [Rewards.fresh] at hc'
  have h1 := (I.core.at_ R nR).rew.solv cfg hc'
  refine ⟨((run h w0 ts).led.bal cfg.token R).toNat - ((run h w0 ts).rew R).dist.withdrawable, ?_⟩
  unfold Rewards.queryUndistributed
  simp only [bind_ok, Rewards.getConfig_ok, req_ok, toU128_ok, subU_ok]
  simp only at h1
  exact ⟨cfg, hc', (), rfl, ((run h w0 ts).led.bal cfg.token R).toNat, by omega, by omega, rfl⟩

/-- account 1 funds the reward contract of account 5's stakers in token 20 beside the pools; when
half of the time is over, half is handed out -/
def ex_rewards : List Tx :=
  [ ⟨Example.by' 1, .rewards 80 (.init 1 5 20 7 1 1)⟩,
    ⟨{ now := 10, seq := 20, signed := fun x => x == 1 || x == 5 }, .rewards 80 (.fund 10 1000 600000)⟩,
    ⟨{ now := 510, seq := 20, signed := fun x => x == 5 }, .rewards 80 (.distribute 5000000)⟩ ]

example : (Rewards.queryConfig ((run Example.host Example.start
        (Example.setup ++ Example.liquidity ++ ex_rewards)).rew 80)).toOption.map (·.token) = some 20 ∧
    (Rewards.queryUndistributed 80 ((run Example.host Example.start
        (Example.setup ++ Example.liquidity ++ ex_rewards)).rew 80) (run Example.host Example.start
        (Example.setup ++ Example.liquidity ++ ex_rewards)).led 20).toOption = some 300000 := by decide +kernel

/-! ### C77 -/

/-- **C77** An account that has granted no allowance and signs none of the transactions of a
history ends it with at least what it had, in every token: nobody can take anything from it through
any of the contracts. -/
theorem C77_silent_account_keeps (hh : HostOK h acct) (g : Genesis acct w0) {ts us : List Tx} (hp : ∀ t ∈ ts, Possible acct t)
    (hu : ∀ t ∈ us, Possible acct t) {a : Addr} (ha : acct a) (hno : Phoenix.Spec.NoAllowance a (run h w0 ts).led)
    (hs : ∀ t ∈ us, t.ctx.signed a = false) (tok : Addr) :
    (run h w0 ts).led.bal tok a ≤ (run h (run h w0 ts) us).led.bal tok a := by
  obtain ⟨I, -⟩ := run_inv hh (Phoenix.World.genesis_inv (h := h) g) hp
  have hL : LedInv a (run h w0 ts).led := by
    refine ⟨?_, hno⟩
    have hz : ∃ z, ¬ acct z := ⟨_, hh.stake 0⟩
    obtain ⟨z, hz⟩ := hz
    exact (I.core.at_ z hz).led.nonneg
  exact (silent hh ha us _ I hu hs hL).2 tok
where
  silent {h : Host} {acct : Accounts} (hh : HostOK h acct) {a : Addr} (ha : acct a) : ∀ (us : List Tx) (w : World),
      Inv h acct w → (∀ t ∈ us, Possible acct t) → (∀ t ∈ us, t.ctx.signed a = false) → LedInv a w.led →
      LedInv a (run h w us).led ∧ ∀ tok, w.led.bal tok a ≤ (run h w us).led.bal tok a
    | [], w, I, _, _, hL => ⟨hL, fun _ => le_refl _⟩
    | t :: us, w, I, hu, hs, hL => by
      have ht := hu t (by simp)
      have hst := hs t (by simp)
      obtain ⟨I1, -⟩ := exec_inv hh I ht
      have h1 : LedInv a (exec h w t).led ∧ ∀ tok, w.led.bal tok a ≤ (exec h w t).led.bal tok a := by
        unfold exec
        split
        · rename_i w1 e
          refine step_noLoss hh I ht.1 e hst ?_ hL
          by_contra hc
          exact I.core.contracts a hc ha
        · exact ⟨hL, fun _ => le_refl _⟩
      obtain ⟨h2, h3⟩ := silent hh ha us (exec h w t) I1 (fun u q => hu u (by simp [q])) (fun u q => hs u (by simp [q])) h1.1
      exact ⟨h2, fun tok => (h1.2 tok).trans (h3 tok)⟩

/-- account 2 stays silent while account 1 provides liquidity -/
example : (run Example.host (run Example.host Example.start Example.setup) Example.liquidity).led.bal 21 2 = 5000000 ∧
    (run Example.host (run Example.host Example.start Example.setup) Example.liquidity).led.bal 21 1 = 2000000 := by
  decide +kernel

/-! ### C78 -/

/-- **C78** A pool created by a factory is connected to its own share token, which only the pool
can mint, and to a stake contract for exactly that token, with the parameters of the creation call
and owned by the factory; and this stays so for ever. -/
theorem C78_created_pool_wired (hh : HostOK h acct) (g : Genesis acct w0) {ts us : List Tx} (hp : ∀ t ∈ ts, Possible acct t)
    (hu : ∀ t ∈ us, Possible acct t) {c : Ctx} {F sender : Addr} {i : Info} {k : Kind} {amp : Option Nat} {sl mf : Int}
    (hF : (run h w0 ts).code F = .factory)
    {w' : World} {P : Addr} (e : create h (run h w0 ts) c F sender i k amp sl mf = .ok (w', P)) :
    Wired (run h w' us) F P i := by
  obtain ⟨I, -⟩ := run_inv hh (Phoenix.World.genesis_inv (h := h) g) hp
  obtain ⟨I1, g1, f, cr, -⟩ := create_step hh I hF e
  obtain ⟨I2, g2⟩ := run_inv hh (ts := us) I1 hu
  exact wired_grows I1 I2 g2 cr.wired

example : poolRefs (run Example.host Example.start Example.setup) Example.pool1 = .ok (10602062, 20602021) ∧
    ((run Example.host Example.start Example.setup).stake 20602021).cfg = some ⟨10602062, 1, 1, 6, 50, 7⟩ := by
  decide +kernel

/-! ### C79 -/

/-- **C79** A transaction changes the stored state (reserves, stakes, schedules, settings) only of
the contract it calls, of the pools on its route, and of contracts it newly deploys; every other
contract keeps its state and code. -/
theorem C79_contracts_separate {w : World} (t : Tx) {a : Addr} (ha : ¬ Touches w t.call a) : SameAt w (exec h w t) a := by
  unfold exec
  split
  · rename_i w' e; exact step_same e ha
  · exact .refl _ _

/-- **C79** A transaction takes tokens only from those who sign it and from the contracts it
involves; in particular from no other contract. -/
theorem C79_funds_separate (hh : HostOK h acct) (g : Genesis acct w0) {ts : List Tx} (hp : ∀ t ∈ ts, Possible acct t)
    {t : Tx} (ht : Possible acct t) {a : Addr} (hs : t.ctx.signed a = false) (hn : ¬ Spends (run h w0 ts) t.call a)
    (hno : ¬ acct a ∨ Phoenix.Spec.NoAllowance a (run h w0 ts).led) (tok : Addr) :
    (run h w0 ts).led.bal tok a ≤ (exec h (run h w0 ts) t).led.bal tok a := by
  obtain ⟨I, -⟩ := run_inv hh (Phoenix.World.genesis_inv (h := h) g) hp
  have hL : LedInv a (run h w0 ts).led := by
    rcases hno with k | k
    · exact (I.core.at_ a k).led
    · exact ⟨(I.core.at_ _ (hh.stake 0)).led.nonneg, k⟩
  unfold exec
  split
  · rename_i w1 e; exact (step_untouched hh I ht.1 e hs hn hL).2 tok
  · exact le_refl _

/-- a swap in one pool leaves the other alone, although both hold token 21 -/
example : ¬ Touches (run Example.host Example.start (Example.setup ++ Example.liquidity))
      (.xyk Example.pool1 (.swap 2 20 1000 none none none none)) Example.pool2 ∧
    ((exec Example.host (run Example.host Example.start (Example.setup ++ Example.liquidity))
      ⟨Example.by' 2, .xyk Example.pool1 (.swap 2 20 1000 none none none none)⟩).xyk Example.pool1).map
        (fun p => (p.resA, p.resB)) = some (1001000, 1998001) := by
  refine ⟨by simp [Touches], by decide +kernel⟩

end Phoenix.Props.World
