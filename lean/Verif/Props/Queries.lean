import Verif.Model.Queries
import Verif.Props.Portfolio
import Verif.Props.Trader
import Verif.Lemmas.Rights
/-!
Property C134: what pools and traders say about themselves is true, consistent, and as far as addresses go never changes.
-/
namespace Phoenix.Props.Queries
open Phoenix Phoenix.World Phoenix.World.Spec Phoenix.Props Phoenix.Props.World Phoenix.Props.Portfolio

variable {h : Host} {acct : Accounts} {w0 : World}

/-- `query_pool_info` is `query_pool_info_for_factory` without the pool's address and fee. -/
theorem poolInfo_of {w : World} {P : Addr} {r : PoolResponse} : queryPoolInfo w P = .ok r ↔
    ∃ i, Describes w P i ∧ r = ⟨i.assetA, i.assetB, i.share, i.stake⟩ := by
  unfold queryPoolInfo
  constructor
  · intro k
    split at k
    · rename_i e
      simp only [bind_ok, ok_inj] at k
      obtain ⟨p, hp, rfl⟩ := k
      exact ⟨⟨P, _, _, _, _, p.cfg.totalFeeBps⟩, ⟨rfl, .inl ⟨e, p, pool_loaded hp, rfl, rfl, rfl, rfl, rfl⟩⟩, rfl⟩
    · rename_i e
      simp only [bind_ok, ok_inj] at k
      obtain ⟨p, hp, rfl⟩ := k
      exact ⟨⟨P, _, _, _, _, p.cfg.totalFeeBps⟩, ⟨rfl, .inr ⟨e, p, stable_loaded hp, rfl, rfl, rfl, rfl, rfl⟩⟩, rfl⟩
    · simp at k
  · rintro ⟨i, ⟨-, ⟨e, p, hp, k1, k2, k3, k4, -⟩ | ⟨e, p, hp, k1, k2, k3, k4, -⟩⟩, rfl⟩ <;> rw [e, hp, k1, k2, k3, k4] <;> rfl

/-- **C134** A pool answers `query_pool_info` exactly from the moment it is initialised. -/
theorem C134_pool_answers (w : World) (P : Addr) :
    (∃ r, queryPoolInfo w P = .ok r) ↔
      (w.code P = .xyk ∧ (w.xyk P).isSome = true) ∨ (w.code P = .stable ∧ (w.stable P).isSome = true) := by
  constructor
  · rintro ⟨r, hr⟩
    obtain ⟨i, ⟨-, ⟨e, p, hp, -⟩ | ⟨e, p, hp, -⟩⟩, -⟩ := poolInfo_of.mp hr
    · exact .inl ⟨e, by rw [hp]; rfl⟩
    · exact .inr ⟨e, by rw [hp]; rfl⟩
  · rintro (⟨e, hp⟩ | ⟨e, hp⟩) <;> obtain ⟨p, hp⟩ := Option.isSome_iff_exists.mp hp <;>
      exact ⟨_, by unfold queryPoolInfo; rw [e, hp]; rfl⟩

/-- **C134** In every state of every history, what a pool says about itself is consistent and true: all its queries give the
same addresses and the same number of LP shares, the factory's `query_pool_details` gives the same as the pool's own answer, the two
assets are different, the announced reserves are really held by the pool, no group of accounts together holds more LP shares than
announced, the announced share token is a token, and the announced stake contract takes exactly these shares. -/
theorem C134_pool_truthful (hh : HostOK h acct) (g : Genesis acct w0) {ts : List Tx} (hp : ∀ t ∈ ts, Possible acct t)
    {P : Addr} {r : PoolResponse} (hr : queryPoolInfo (run h w0 ts) P = .ok r) :
    queryShareToken (run h w0 ts) P = .ok r.share.1 ∧
    queryStakeContract (run h w0 ts) P = .ok r.stake ∧
    queryTotalIssued (run h w0 ts) P = .ok r.share.2 ∧
    (∃ fee, poolDetails (run h w0 ts) P = .ok ⟨P, r.assetA, r.assetB, r.share, r.stake, fee⟩) ∧
    ((∃ c, queryConfigXyk (run h w0 ts) P = .ok c ∧ c.tokenA = r.assetA.1 ∧ c.tokenB = r.assetB.1 ∧ c.shareToken = r.share.1 ∧
        c.stakeContract = r.stake) ∨
      (∃ c, queryConfigStable (run h w0 ts) P = .ok c ∧ c.tokenA = r.assetA.1 ∧ c.tokenB = r.assetB.1 ∧ c.shareToken = r.share.1 ∧
        c.stakeContract = r.stake)) ∧
    r.assetA.1 ≠ r.assetB.1 ∧
    (0 ≤ r.assetA.2 ∧ r.assetA.2 ≤ (run h w0 ts).led.bal r.assetA.1 P) ∧
    (0 ≤ r.assetB.2 ∧ r.assetB.2 ≤ (run h w0 ts).led.bal r.assetB.1 P) ∧
    (∀ S : Finset Addr, ∑ a ∈ S, (run h w0 ts).led.bal r.share.1 a ≤ r.share.2) ∧
    (run h w0 ts).code r.share.1 = .token ∧
    (run h w0 ts).code r.stake = .stake ∧ ∃ cfg, ((run h w0 ts).stake r.stake).cfg = some cfg ∧ cfg.lpToken = r.share.1 := by
  obtain ⟨I, -⟩ := run_inv hh (Phoenix.World.genesis_inv (h := h) g) hp
  obtain ⟨i, hi, rfl⟩ := poolInfo_of.mp hr
  have F := facts I hi
  have hd : poolDetails (run h w0 ts) P = .ok i := C90_pool_details.mpr hi
  obtain ⟨i0, hk⟩ := hi
  subst i0
  rcases hk with ⟨e, p, hP, k1, k2, k3, k4, k5⟩ | ⟨e, p, hP, k1, k2, k3, k4, k5⟩
  · have nP := I.core.contracts i.pool (by rw [e]; simp)
    have K := (I.core.at_ i.pool nP).xyk.pool p hP
    refine ⟨?_, ?_, ?_, ⟨i.feeBps, hd⟩, .inl ⟨p.cfg, ?_, ?_, ?_, ?_, ?_⟩, ?_, ?_, ?_, F.cover, F.token, F.stake.1, F.stake.2⟩ <;>
      simp only [queryShareToken, queryStakeContract, queryTotalIssued, queryConfigXyk, expect, e, hP, Pool.loaded, k1, k2, k3, k4, bind_ok,
        req_ok]
    · exact ⟨p, rfl, rfl⟩
    · exact ⟨p, rfl, rfl⟩
    · exact ⟨p, rfl, rfl⟩
    · exact ⟨(), trivial, p, rfl, rfl⟩
    · exact K.distinct.1
    · exact ⟨K.a0, K.aB⟩
    · exact ⟨K.b0, K.bB⟩
  · have nP := I.core.contracts i.pool (by rw [e]; simp)
    have K := (I.core.at_ i.pool nP).stable.pool p hP
    refine ⟨?_, ?_, ?_, ⟨i.feeBps, hd⟩, .inr ⟨p.cfg, ?_, ?_, ?_, ?_, ?_⟩, ?_, ?_, ?_, F.cover, F.token, F.stake.1, F.stake.2⟩ <;>
      simp only [queryShareToken, queryStakeContract, queryTotalIssued, queryConfigStable, expect, e, hP, Stable.loaded, k1, k2, k3, k4,
        bind_ok, req_ok]
    · exact ⟨p, rfl, rfl⟩
    · exact ⟨p, rfl, rfl⟩
    · exact ⟨p, rfl, rfl⟩
    · exact ⟨(), trivial, p, rfl, rfl⟩
    · exact K.distinct.1
    · exact ⟨K.a0, K.aB⟩
    · exact ⟨K.b0, K.bB⟩

/-- **C134** The addresses a pool answers with - its two assets, its share token and its stake contract - never change again, and it
never stops answering. -/
theorem C134_pool_addresses (hh : HostOK h acct) (g : Genesis acct w0) {ts us : List Tx} (hp : ∀ t ∈ ts, Possible acct t)
    (hu : ∀ t ∈ us, Possible acct t) {P : Addr} {r : PoolResponse} (hr : queryPoolInfo (run h w0 ts) P = .ok r) :
    ∃ r', queryPoolInfo (run h (run h w0 ts) us) P = .ok r' ∧
      r'.assetA.1 = r.assetA.1 ∧ r'.assetB.1 = r.assetB.1 ∧ r'.share.1 = r.share.1 ∧ r'.stake = r.stake := by
  obtain ⟨I, -⟩ := run_inv hh (Phoenix.World.genesis_inv (h := h) g) hp
  obtain ⟨-, G⟩ := run_inv hh I hu
  obtain ⟨i, ⟨-, ⟨e, p, hP, k1, k2, k3, k4, -⟩ | ⟨e, p, hP, k1, k2, k3, k4, -⟩⟩, rfl⟩ := poolInfo_of.mp hr
  · obtain ⟨q, hq, a1, a2, a3, a4⟩ := G.xyk P p hP
    have e' := code_keep G e (by simp)
    refine ⟨_, by unfold queryPoolInfo; rw [e', hq]; rfl, ?_, ?_, ?_, ?_⟩ <;> simp [a1, a2, a3, a4, k1, k2, k3, k4]
  · obtain ⟨q, hq, a1, a2, a3, a4⟩ := G.stable P p hP
    have e' := code_keep G e (by simp)
    refine ⟨_, by unfold queryPoolInfo; rw [e', hq]; rfl, ?_, ?_, ?_, ?_⟩ <;> simp [a1, a2, a3, a4, k1, k2, k3, k4]

/-- No transaction changes the decimals of a token that exists. -/
theorem exec_decimals {w : World} {t : Tx} {tok : Addr} (k : w.code tok ≠ .none) :
    ((exec h w t).led tok).decimals = (w.led tok).decimals := by
  unfold exec
  split
  · rename_i w' e
    by_cases ht : ∃ tk op, t.call = .token tk op
    · obtain ⟨tk, op, ht⟩ := ht
      rw [ht] at e
      simp only [step, bind_ok, ok_inj] at e
      obtain ⟨_, _, L, hL, rfl⟩ := e
      exact Stable.call_decimals hL tok
    · rcases step_rights (fun tk op q => ht ⟨tk, op, q⟩) e tok with ⟨-, -, q⟩ | ⟨q, -⟩
      · exact q
      · exact absurd q k
  · rfl

theorem run_decimals (hh : HostOK h acct) {w : World} (I : Inv h acct w) {us : List Tx} (hu : ∀ t ∈ us, Possible acct t) {tok : Addr}
    (k : w.code tok ≠ .none) : ((run h w us).led tok).decimals = (w.led tok).decimals := by
  induction us generalizing w with
  | nil => rfl
  | cons t us ih =>
    obtain ⟨I1, G⟩ := exec_inv hh I (hu t List.mem_cons_self)
    have := ih I1 (fun u q => hu u (List.mem_cons_of_mem _ q)) (by rw [G.code tok k]; exact k)
    exact this.trans (exec_decimals k)

/-- **C134** What a trader says about itself: the pair and the admin it announces, and the address and decimals of its output token,
never change again, whatever is called. -/
theorem C134_trader_for_ever (hh : HostOK h acct) (g : Genesis acct w0) {ts us : List Tx} (hp : ∀ t ∈ ts, Possible acct t)
    (hu : ∀ t ∈ us, Possible acct t) {T : Addr} :
    (∀ r, queryTradingPairs (run h w0 ts) T = .ok r → queryTradingPairs (run h (run h w0 ts) us) T = .ok r) ∧
    (∀ r, queryTraderAdmin (run h w0 ts) T = .ok r → queryTraderAdmin (run h (run h w0 ts) us) T = .ok r) ∧
    (∀ r, queryOutputToken (run h w0 ts) T = .ok r → queryOutputToken (run h (run h w0 ts) us) T = .ok r) := by
  obtain ⟨I, -⟩ := run_inv hh (Phoenix.World.genesis_inv (h := h) g) hp
  obtain ⟨-, G⟩ := run_inv hh I hu
  have key : ∀ {t}, traderAt (run h w0 ts) T = .ok t → traderAt (run h (run h w0 ts) us) T = .ok t := by
    intro t q
    simp only [traderAt, bind_ok, expect_ok] at q ⊢
    obtain ⟨_, q1, q2⟩ := q
    refine ⟨(), code_keep G q1 (by simp), ?_⟩
    cases q3 : (run h w0 ts).trd T with
    | none => rw [q3] at q2; simp [Trader.loaded] at q2
    | some s => rw [q3] at q2; rw [G.trd T s q3]; exact q2
  refine ⟨fun r q => ?_, fun r q => ?_, fun r q => ?_⟩
  · simp only [queryTradingPairs, bind_ok] at q ⊢
    obtain ⟨t, q1, q2⟩ := q
    exact ⟨t, key q1, q2⟩
  · simp only [queryTraderAdmin, bind_ok] at q ⊢
    obtain ⟨t, q1, q2⟩ := q
    exact ⟨t, key q1, q2⟩
  · simp only [queryOutputToken, bind_ok, expect_ok] at q ⊢
    obtain ⟨t, q1, _, q2, q3⟩ := q
    refine ⟨t, key q1, (), code_keep G q2 (by simp), ?_⟩
    rw [run_decimals hh I hu (by rw [q2]; simp)]
    exact q3

/-- **C134** `query_balances` of a trader names the pair and the output token announced by its other queries, and for each of them
exactly what the trader holds of it, never a negative amount. -/
theorem C134_trader_balances (hh : HostOK h acct) (g : Genesis acct w0) {ts : List Tx} (hp : ∀ t ∈ ts, Possible acct t) {T : Addr}
    {r : BalanceInfo} (hr : queryBalances (run h w0 ts) T = .ok r) :
    queryTradingPairs (run h w0 ts) T = .ok (r.assetA.1, r.assetB.1) ∧
    (∃ d, queryOutputToken (run h w0 ts) T = .ok (r.output.1, d)) ∧
    (∀ x, x = r.output ∨ x = r.assetA ∨ x = r.assetB →
      (run h w0 ts).code x.1 = .token ∧ x.2 = (run h w0 ts).led.bal x.1 T ∧ 0 ≤ x.2) := by
  obtain ⟨I, -⟩ := run_inv hh (Phoenix.World.genesis_inv (h := h) g) hp
  simp only [queryBalances, tokenBalance, bind_ok, expect_ok, ok_inj] at hr
  obtain ⟨t, q1, o, ⟨_, q2, rfl⟩, a, ⟨_, q3, rfl⟩, b, ⟨_, q4, rfl⟩, rfl⟩ := hr
  have nn : ∀ tok, 0 ≤ (run h w0 ts).led.bal tok T := by
    intro tok
    simp only [traderAt, bind_ok, expect_ok] at q1
    obtain ⟨_, q1, -⟩ := q1
    have nP := I.core.contracts T (by rw [q1]; simp)
    exact (I.core.at_ T nP).led.nonneg tok T
  refine ⟨?_, ⟨((run h w0 ts).led t.output).decimals, ?_⟩, ?_⟩
  · simp only [queryTradingPairs, bind_ok]; exact ⟨t, q1, rfl⟩
  · simp only [queryOutputToken, bind_ok, expect_ok]; exact ⟨t, q1, (), q2, rfl⟩
  · rintro x (rfl | rfl | rfl)
    · exact ⟨q2, rfl, nn _⟩
    · exact ⟨q3, rfl, nn _⟩
    · exact ⟨q4, rfl, nn _⟩

/-- The pool for 20 and 21 and the trader at 60 answer; the pool's amounts change with a swap, its addresses do not. -/
example : (queryPoolInfo (run Example.host Example.start Trader.exTs) Example.pool1).toOption =
      some ⟨(20, 1000000), (21, 2000000), (10602062, 1414213), 20602021⟩ ∧
    (queryBalances (run Example.host Example.start Trader.exTs) 60).toOption = some ⟨(21, 0), (20, 1000), (21, 0)⟩ ∧
    (queryTradingPairs (run Example.host Example.start Trader.exTs) 60).toOption = some (20, 21) ∧
    (queryOutputToken (run Example.host Example.start Trader.exTs) 60).toOption = some (21, 7) ∧
    (queryPoolInfo (run Example.host Example.start Trader.exTs) 60).toOption = none := by decide +kernel

end Phoenix.Props.Queries
