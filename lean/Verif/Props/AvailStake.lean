import Verif.Lemmas.Accept
import Verif.Props.World
/-!
Property C113: which calls the stake contract accepts, in the whole protocol.
-/
namespace Phoenix.Props.World
open Phoenix Phoenix.World Phoenix.World.Spec

variable {h : Host} {acct : Accounts} {w0 : World} {ts : List Tx} {K a : Addr} {c : Ctx} {x : Int}

/-- **C113** `initialize` of a stake contract goes through exactly once, and only with a positive
minimum bond, minimum reward and complexity; nobody needs to sign it. -/
theorem C113_initialize {lp m o : Addr} {mb mr : Int} {mc : Nat} (hK : (run h w0 ts).code K = .stake) :
    Accepts h (run h w0 ts) c (.stake K (.init a lp mb mr m o mc)) ↔
      ((run h w0 ts).stake K).cfg = none ∧ 0 < mb ∧ 0 < mr ∧ 0 < mc := by
  rw [stake_iff hK]
  simp only [Stake.step, Stake.init, bind_ok, req_ok, ok_inj]
  constructor
  · rintro ⟨_, _, ⟨_, h1, _, h2, _, h3, _, h4, -⟩, -⟩
    exact ⟨h1, by omega, by omega, by omega⟩
  · rintro ⟨h1, h2, h3, h4⟩
    exact ⟨_, _, ⟨(), h1, (), by omega, (), by omega, (), by omega, rfl⟩, rfl⟩

/-- **C113** A bond is accepted exactly when the staker signs it, it reaches the minimum, the
staker can pay it to the contract, and the total of all stakes does not run over. -/
theorem C113_bond (hh : HostOK h acct) (g : Genesis acct w0) (hp : ∀ y ∈ ts, Possible acct y)
    (hK : (run h w0 ts).code K = .stake) {cfg : Stake.Config} (hcfg : ((run h w0 ts).stake K).cfg = some cfg)
    (hc : Possible acct ⟨c, .stake K (.bond a x)⟩) :
    Accepts h (run h w0 ts) c (.stake K (.bond a x)) ↔
      Signs c a ∧ cfg.minBond ≤ x ∧ CanPay (run h w0 ts) cfg.lpToken a K x ∧
        ((run h w0 ts).stake K).total + x ≤ I128_MAX := by
  obtain ⟨I, -⟩ := run_inv hh (Phoenix.World.genesis_inv (h := h) g) hp
  generalize run h w0 ts = w at *
  have nK := I.core.contracts K (by rw [hK]; simp)
  have hr := I.core.range nK
  have hi := (I.core.at_ K nK).stake
  rw [stake_iff hK]
  simp only [Stake.step, Stake.bond, bind_ok, req_ok, ok_inj, requireAuth_ok, Stake.getConfig_ok, addI_ok, outside hc]
  constructor
  · rintro ⟨_, _, ⟨_, h1, cf, h2, _, h3, L, h4, _, -, _, ⟨h5, rfl⟩, -⟩, -⟩
    obtain rfl : cfg = cf := by rw [hcfg] at h2; simpa using h2
    have := (transfer_iff hr (outside_ne hc h1 nK)).mp ⟨_, h4⟩
    exact ⟨h1, by omega, this.2, h5.2⟩
  · rintro ⟨h1, h2, h3, h4⟩
    obtain ⟨L, e⟩ := (transfer_iff hr (outside_ne hc h1 nK) (c := c.as K)).mpr ⟨as_auth.mpr (.inl h1), h3⟩
    have b1 := hi.one_le a
    have b2 := hi.total_nonneg a
    have b3 := hi.nonneg
    simp only at b1 b2 b3
    have := h3.1
    refine ⟨_, _, ⟨(), h1, cfg, hcfg, (), by omega, L, e, _, ⟨?_, rfl⟩, _, ⟨?_, rfl⟩, rfl⟩, rfl⟩ <;>
      · simp only [InI128, I128_MIN]; constructor <;> omega

/-- **C113** Taking a stake back is accepted exactly when its owner signs it, the named stake
(amount and time) is one of theirs, and the contract can pay it. -/
theorem C113_unbond (hh : HostOK h acct) (g : Genesis acct w0) (hp : ∀ y ∈ ts, Possible acct y)
    (hK : (run h w0 ts).code K = .stake) {cfg : Stake.Config} (hcfg : ((run h w0 ts).stake K).cfg = some cfg) {tm : Nat}
    (hc : Possible acct ⟨c, .stake K (.unbond a x tm)⟩) :
    Accepts h (run h w0 ts) c (.stake K (.unbond a x tm)) ↔
      Signs c a ∧ ⟨x, tm⟩ ∈ (Stake.queryStaked ((run h w0 ts).stake K) a).stakes ∧
        CanPay (run h w0 ts) cfg.lpToken K a x := by
  obtain ⟨I, -⟩ := run_inv hh (Phoenix.World.genesis_inv (h := h) g) hp
  generalize run h w0 ts = w at *
  have nK := I.core.contracts K (by rw [hK]; simp)
  have hr := I.core.range nK
  have hi := (I.core.at_ K nK).stake
  rw [stake_iff hK]
  simp only [Stake.step, Stake.unbond, bind_ok, ok_inj, requireAuth_ok, Stake.getConfig_ok, subI_ok, outside hc]
  constructor
  · rintro ⟨_, _, ⟨_, h1, cf, h2, l, h3, _, -, L, h4, -⟩, -⟩
    obtain rfl : cfg = cf := by rw [hcfg] at h2; simpa using h2
    have := (transfer_iff hr (Ne.symm (outside_ne hc h1 nK))).mp ⟨_, h4⟩
    obtain ⟨p, q, e, -, -⟩ := Stake.removeStake_ok h3
    exact ⟨h1, by rw [Stake.queryStaked, e]; simp, this.2⟩
  · rintro ⟨h1, h2, h3⟩
    obtain ⟨l, hl⟩ := Stake.removeStake_mem h2
    obtain ⟨L, e⟩ := (transfer_iff hr (Ne.symm (outside_ne hc h1 nK)) (c := c.as K)).mpr ⟨as_auth_self c K, h3⟩
    have b0 := hi.mem_le h2
    have b1 := hi.one_le a
    have b2 := hi.total_nonneg a
    have b3 := hi.nonneg
    have b4 := hi.small
    simp only at b0 b1 b2 b3 b4
    have := h3.1
    refine ⟨_, _, ⟨(), h1, cfg, hcfg, l, hl, _, ⟨?_, rfl⟩, L, e, _, ⟨?_, rfl⟩, rfl⟩, rfl⟩ <;>
      · simp only [InI128, I128_MIN]; constructor <;> omega

/-- **C113** In particular, as long as the staked token is not a reward token, the owner of a stake
can always take it back; only their own balance running over could stop it. -/
theorem C113_unbond_always (hh : HostOK h acct) (g : Genesis acct w0) (hp : ∀ y ∈ ts, Possible acct y)
    (hK : (run h w0 ts).code K = .stake) {cfg : Stake.Config} (hcfg : ((run h w0 ts).stake K).cfg = some cfg)
    (hr : cfg.lpToken ∉ ((run h w0 ts).stake K).dists) {tm : Nat}
    (hc : Possible acct ⟨c, .stake K (.unbond a x tm)⟩) (hs : Signs c a)
    (hm : ⟨x, tm⟩ ∈ (Stake.queryStaked ((run h w0 ts).stake K) a).stakes)
    (hfit : (run h w0 ts).led.bal cfg.lpToken a + x ≤ I128_MAX) :
    Accepts h (run h w0 ts) c (.stake K (.unbond a x tm)) := by
  rw [C113_unbond hh g hp hK hcfg hc]
  obtain ⟨I, -⟩ := run_inv hh (Phoenix.World.genesis_inv (h := h) g) hp
  generalize run h w0 ts = w at *
  have nK := I.core.contracts K (by rw [hK]; simp)
  have hi := (I.core.at_ K nK).stake
  have b0 := hi.mem_le hm
  have b1 := hi.one_le a
  have b2 := hi.pos a _ hm
  have b3 := hi.lp cfg hcfg hr
  simp only at b0 b1 b2 b3
  exact ⟨hs, hm, by omega, by omega, hfit⟩

/-- **C113** A new reward token is accepted exactly when the manager or the owner of the contract
signs the call and the token is not a reward token yet. -/
theorem C113_create_flow (hK : (run h w0 ts).code K = .stake) {cfg : Stake.Config}
    (hcfg : ((run h w0 ts).stake K).cfg = some cfg) {t : Addr} (hc : Possible acct ⟨c, .stake K (.createFlow a t)⟩) :
    Accepts h (run h w0 ts) c (.stake K (.createFlow a t)) ↔
      Signs c a ∧ (a = cfg.manager ∨ a = cfg.owner) ∧ t ∉ ((run h w0 ts).stake K).dists := by
  rw [stake_iff hK]
  simp only [Stake.step, Stake.createFlow, bind_ok, req_ok, ok_inj, requireAuth_ok, Stake.getConfig_ok, outside hc]
  constructor
  · rintro ⟨_, _, ⟨_, h1, cf, h2, _, h3, _, h4, -⟩, -⟩
    obtain rfl : cfg = cf := by rw [hcfg] at h2; simpa using h2
    exact ⟨h1, by tauto, h4⟩
  · rintro ⟨h1, h2, h3⟩
    exact ⟨_, _, ⟨(), h1, cfg, hcfg, (), by tauto, (), h3, rfl⟩, rfl⟩

/-- **C113** A distribution of an existing token is accepted exactly when the manager or the owner
signs it, the token is a reward token, and they can pay the amount to the contract. -/
theorem C113_distribute (hh : HostOK h acct) (g : Genesis acct w0) (hp : ∀ y ∈ ts, Possible acct y)
    (hK : (run h w0 ts).code K = .stake) {cfg : Stake.Config} (hcfg : ((run h w0 ts).stake K).cfg = some cfg) {t : Addr}
    (_ht : (run h w0 ts).code t = .token) (hc : Possible acct ⟨c, .stake K (.distribute a x t)⟩) :
    Accepts h (run h w0 ts) c (.stake K (.distribute a x t)) ↔
      Signs c a ∧ (a = cfg.manager ∨ a = cfg.owner) ∧ t ∈ ((run h w0 ts).stake K).dists ∧
        CanPay (run h w0 ts) t a K x := by
  obtain ⟨I, -⟩ := run_inv hh (Phoenix.World.genesis_inv (h := h) g) hp
  generalize run h w0 ts = w at *
  have nK := I.core.contracts K (by rw [hK]; simp)
  have hr := I.core.range nK
  have hi := (I.core.at_ K nK).stake
  rw [stake_iff hK]
  simp only [Stake.step, Stake.distribute, bind_ok, req_ok, ok_inj, requireAuth_ok, Stake.getConfig_ok, Stake.rewardHistory_ok,
    outside hc]
  constructor
  · rintro ⟨_, _, ⟨_, h1, cf, h2, _, h3, _, h4, m, -, L, h5, -⟩, -⟩
    obtain rfl : cfg = cf := by rw [hcfg] at h2; simpa using h2
    have := (transfer_iff hr (outside_ne hc h1 nK)).mp ⟨_, h5⟩
    exact ⟨h1, by tauto, h4, this.2⟩
  · rintro ⟨h1, h2, h3, h4⟩
    obtain ⟨m, hm⟩ := hi.mem_dists h3
    obtain ⟨L, e⟩ := (transfer_iff hr (outside_ne hc h1 nK) (c := c.as K)).mpr ⟨as_auth.mpr (.inl h1), h4⟩
    exact ⟨_, _, ⟨(), h1, cfg, hcfg, (), by tauto, (), h3, m, hm, L, e, rfl⟩, rfl⟩

/-- **C113** All reward tokens being tokens, a withdrawal of the rewards of `a`, by anybody, is accepted exactly when
`query_withdrawable_rewards` answers at that moment and the contract can pay each amount it names. -/
theorem C113_withdraw (hh : HostOK h acct) (g : Genesis acct w0) (hp : ∀ y ∈ ts, Possible acct y)
    (hK : (run h w0 ts).code K = .stake)
    (_ht : ∀ t ∈ ((run h w0 ts).stake K).dists, (run h w0 ts).code t = .token) (ha : a ≠ K) :
    Accepts h (run h w0 ts) c (.stake K (.withdraw a)) ↔
      ∃ r, Stake.queryWithdrawable c ((run h w0 ts).stake K) a = .ok r ∧
        ∀ p ∈ r, CanPay (run h w0 ts) p.1 K a p.2 := by
  obtain ⟨I, -⟩ := run_inv hh (Phoenix.World.genesis_inv (h := h) g) hp
  generalize run h w0 ts = w at *
  have nK := I.core.contracts K (by rw [hK]; simp)
  have hr := I.core.range nK
  have hi := (I.core.at_ K nK).stake
  rw [stake_iff hK]
  have key : (∃ s, Stake.step K ⟨w.stake K, w.led⟩ (.stake c (.withdraw a)) = .ok s) ↔
      ∃ L', Stake.payLoop K c (w.stake K) a (w.stake K).dists w.led = .ok L' := by
    simp only [Stake.step, Stake.withdraw, bind_ok, ok_inj]
    constructor
    · rintro ⟨_, _, ⟨L, e, -⟩, -⟩; exact ⟨L, e⟩
    · rintro ⟨L, e⟩; exact ⟨_, _, ⟨L, e, rfl⟩, rfl⟩
  rw [key, pays_iff ha hi.nodup hr]
  constructor
  · intro hp
    obtain ⟨r, e, hq⟩ := queryLoop_of (fun t ht => (hp t ht).imp fun _ k => k.1)
    refine ⟨r, e, fun q hr' => ?_⟩
    obtain ⟨p, k1, k2, k3⟩ := hq q hr'
    obtain ⟨p', j1, j2, j3, j4⟩ := hp _ k1
    obtain rfl : p = p' := by rw [k2] at j1; simpa using j1
    have hm := (hr q.1 K).2
    rw [k3]
    unfold CanPay
    rw [asU128_nonneg j2 (by omega)]
    exact ⟨j2, j3, j4⟩
  · rintro ⟨r, h1, h2⟩ t ht
    obtain ⟨i1, i2⟩ := Stake.queryLoop_inv h1
    obtain ⟨p, hp, hm⟩ := i2 t ht
    have k := h2 _ hm
    have hm := (hr t K).2
    simp only [CanPay] at k
    have hp0 := asU128_small (pending_range hp) (by omega)
    rw [asU128_nonneg hp0 (pending_range hp).2] at k
    exact ⟨p, hp, k⟩

/-! A history in which all these calls occur -/
section
open Phoenix.World.Example

/-- address of the stake contract of the first pool -/
abbrev exStk : Addr := 20602021

/-- account 1 stakes 1000 shares, the manager makes token 20 a reward token and distributes 500 -/
def exStaking : List Tx := setup ++ liquidity ++
  [ ⟨by' 1, .stake exStk (.bond 1 1000)⟩,
    ⟨by' 6, .stake exStk (.createFlow 6 20)⟩,
    ⟨by' 1, .token 20 (.transfer 1 6 600)⟩,
    ⟨by' 6, .stake exStk (.distribute 6 500 20)⟩ ]

theorem exStaking_possible : ∀ y ∈ exStaking, Possible Example.acct y := by
  intro y hy
  simp only [exStaking, setup, liquidity, List.cons_append, List.nil_append, List.mem_cons, List.not_mem_nil, or_false] at hy
  rcases hy with rfl | rfl | rfl | rfl | rfl | rfl | rfl | rfl | rfl | rfl | rfl <;>
    exact possible_by (by decide)

example : (run host start exStaking).code exStk = .stake ∧
    (((run host start exStaking).stake exStk).cfg.map fun c => (c.lpToken, c.minBond, c.manager, c.owner)) = some (10602062, 1, 6, 50) ∧
    (Stake.queryStaked ((run host start exStaking).stake exStk) 1).stakes = [⟨1000, 10⟩] ∧
    ((run host start exStaking).stake exStk).dists = [20] ∧ (run host start exStaking).code 20 = .token ∧
    (run host start exStaking).led.bal 20 exStk = 500 ∧
    Stake.queryWithdrawable (by' 3) ((run host start exStaking).stake exStk) 1 = .ok [(20, 0)] := by decide +kernel

/-- accepted and refused: unbonding the stake, another amount, somebody else's; withdrawing;
distributing what the manager has and has not -/
example : (step host (run host start exStaking) (by' 1) (.stake exStk (.unbond 1 1000 10))).toOption.isSome = true ∧
    (step host (run host start exStaking) (by' 1) (.stake exStk (.unbond 1 999 10))).toOption.isSome = false ∧
    (step host (run host start exStaking) (by' 2) (.stake exStk (.unbond 1 1000 10))).toOption.isSome = false ∧
    (step host (run host start exStaking) (by' 3) (.stake exStk (.withdraw 1))).toOption.isSome = true ∧
    (step host (run host start exStaking) (by' 6) (.stake exStk (.distribute 6 100 20))).toOption.isSome = true ∧
    (step host (run host start exStaking) (by' 6) (.stake exStk (.distribute 6 101 20))).toOption.isSome = false := by
  decide +kernel

example : HostOK host Example.acct ∧ Genesis Example.acct start := ⟨ex_host, ex_genesis⟩
end

end Phoenix.Props.World
