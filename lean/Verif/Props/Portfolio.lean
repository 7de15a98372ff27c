import Verif.Spec.Portfolio
import Verif.Props.World
import Verif.Props.Share
/-!
Property C90: the reports of a factory about its pools and about a user's holdings.
-/
namespace Phoenix.Props.Portfolio
open Phoenix Phoenix.World Phoenix.World.Spec Phoenix.Props Phoenix.Props.World

variable {h : Host} {acct : Accounts} {w0 : World}

theorem poolInfo_ok {w : World} {P : Addr} {i : PoolInfo} : poolInfo w P = .ok i ↔ Describes w P i := by
  unfold poolInfo Describes
  rcases i with ⟨i1, i2, i3, i4, i5, i6⟩
  constructor
  · intro k
    split at k
    · rename_i e
      simp only [bind_ok, ok_inj] at k
      obtain ⟨p, hp, k⟩ := k
      injection k with k1 k2 k3 k4 k5 k6
      exact ⟨k1.symm, .inl ⟨e, p, pool_loaded hp, k2.symm, k3.symm, k4.symm, k5.symm, k6.symm⟩⟩
    · rename_i e
      simp only [bind_ok, ok_inj] at k
      obtain ⟨p, hp, k⟩ := k
      injection k with k1 k2 k3 k4 k5 k6
      exact ⟨k1.symm, .inr ⟨e, p, stable_loaded hp, k2.symm, k3.symm, k4.symm, k5.symm, k6.symm⟩⟩
    · simp at k
  · rintro ⟨k0, ⟨e, p, hp, k1, k2, k3, k4, k5⟩ | ⟨e, p, hp, k1, k2, k3, k4, k5⟩⟩ <;>
      (simp only at k0 k1 k2 k3 k4 k5; subst k0 k1 k2 k3 k4 k5; rw [e, hp]; rfl)

/-- the share of the supply that an amount of LP shares is -/
def ratioOf (i : PoolInfo) (s : Int) : Res Int := if i.share.2 ≠ 0 then Dec.fromRatio s i.share.2 else .ok 0

theorem poolShare_eq {w : World} {P : Addr} {i : PoolInfo} (k : Describes w P i) (s : Int) :
    poolShare w P s = (do
      let r ← ratioOf i s
      let a ← Dec.mulInt i.assetA.2 r
      let b ← Dec.mulInt i.assetB.2 r
      .ok ((i.assetA.1, a), (i.assetB.1, b))) := by
  unfold poolShare ratioOf
  obtain ⟨-, ⟨e, p, hp, k1, k2, k3, k4, k5⟩ | ⟨e, p, hp, k1, k2, k3, k4, k5⟩⟩ := k
  · rw [e, hp, k1, k2, k3]
    change (Pool.queryShare p s >>= fun (x : Int × Int) => Except.ok ((p.cfg.tokenA, x.1), (p.cfg.tokenB, x.2))) = _
    unfold Pool.queryShare Pool.shareRatio
    cases (if p.total ≠ 0 then Dec.fromRatio s p.total else .ok 0 : Res Int) with
    | error x => rfl
    | ok r =>
      change ((Dec.mulInt p.resA r >>= fun a => Dec.mulInt p.resB r >>= fun b => Except.ok (a, b)) >>= _) =
        (Dec.mulInt p.resA r >>= fun a => Dec.mulInt p.resB r >>= fun b => Except.ok ((p.cfg.tokenA, a), (p.cfg.tokenB, b)))
      cases Dec.mulInt p.resA r <;> cases Dec.mulInt p.resB r <;> rfl
  · rw [e, hp, k1, k2, k3]
    change (Stable.queryShare p s >>= fun (x : Int × Int) => Except.ok ((p.cfg.tokenA, x.1), (p.cfg.tokenB, x.2))) = _
    unfold Stable.queryShare Stable.shareRatio
    cases (if p.total ≠ 0 then Dec.fromRatio s p.total else .ok 0 : Res Int) with
    | error x => rfl
    | ok r =>
      change ((Dec.mulInt p.resA r >>= fun a => Dec.mulInt p.resB r >>= fun b => Except.ok (a, b)) >>= _) =
        (Dec.mulInt p.resA r >>= fun a => Dec.mulInt p.resB r >>= fun b => Except.ok ((p.cfg.tokenA, a), (p.cfg.tokenB, b)))
      cases Dec.mulInt p.resA r <;> cases Dec.mulInt p.resB r <;> rfl

/-- what is known of a pool in a reachable state -/
structure Facts (acct : Accounts) (w : World) (i : PoolInfo) : Prop where
  a0 : 0 ≤ i.assetA.2
  b0 : 0 ≤ i.assetB.2
  t0 : 0 ≤ i.share.2
  cover : ∀ S : Finset Addr, ∑ a ∈ S, w.led.bal i.share.1 a ≤ i.share.2
  token : w.code i.share.1 = .token
  stake : StakeFor w i.stake i.share.1
  inv : Stake.InvA i.stake ⟨w.stake i.stake, w.led⟩
  nacct : ¬ acct i.stake

theorem facts {w : World} (I : Inv h acct w) {P : Addr} {i : PoolInfo} (k : Describes w P i) : Facts acct w i := by
  obtain ⟨-, ⟨e, p, hp, k1, k2, k3, k4, k5⟩ | ⟨e, p, hp, k1, k2, k3, k4, k5⟩⟩ := k
  · have nP := I.core.contracts P (by rw [e]; simp)
    have hP := (I.core.at_ P nP).xyk.pool p hp
    obtain ⟨-, r2, r3⟩ := I.refs.xyk P p hp
    have nK := I.core.contracts p.cfg.stakeContract (by rw [r3.1]; simp)
    have := (I.core.at_ _ nK).stake
    refine ⟨?_, ?_, ?_, ?_, ?_, ?_, ?_, ?_⟩ <;> (try rw [k1]) <;> (try rw [k2]) <;> (try rw [k3]) <;> (try rw [k4])
    exacts [hP.a0, hP.b0, hP.total_nonneg, hP.cover, r2, r3, this, nK]
  · have nP := I.core.contracts P (by rw [e]; simp)
    have hP := (I.core.at_ P nP).stable.pool p hp
    obtain ⟨-, r2, r3, -⟩ := I.refs.stable P p hp
    have nK := I.core.contracts p.cfg.stakeContract (by rw [r3.1]; simp)
    have := (I.core.at_ _ nK).stake
    refine ⟨?_, ?_, ?_, ?_, ?_, ?_, ?_, ?_⟩ <;> (try rw [k1]) <;> (try rw [k2]) <;> (try rw [k3]) <;> (try rw [k4])
    exacts [hP.a0, hP.b0, hP.t0, hP.cover, r2, r3, this, nK]

/-! ### Pool details -/

theorem detailsLoop_ok {w : World} : ∀ {l : List Addr} {acc r : List PoolInfo},
    detailsLoop w l acc = .ok r ↔ ∃ t, r = acc ++ t ∧ List.Forall₂ (Describes w) l t
  | [], acc, r => by
    simp only [detailsLoop, ok_inj, List.forall₂_nil_left_iff]
    constructor
    · rintro rfl; exact ⟨[], by simp, rfl⟩
    · rintro ⟨t, rfl, rfl⟩; simp
  | P :: l, acc, r => by
    simp only [detailsLoop, bind_ok, detailsLoop_ok (l := l), poolInfo_ok, List.forall₂_cons_left_iff]
    constructor
    · rintro ⟨i, hi, t, rfl, ht⟩; exact ⟨i :: t, by simp, i, t, hi, ht, rfl⟩
    · rintro ⟨_, rfl, i, t, hi, ht, rfl⟩; exact ⟨i, hi, t, by simp, ht⟩

theorem listing_described (hh : HostOK h acct) (g : Genesis acct w0) {ts : List Tx} (hp : ∀ t ∈ ts, Possible acct t)
    {F : Addr} {c : Listing} (hc : c ∈ created h F w0 ts) :
    ∃ i, Describes (run h w0 ts) c.pool i ∧ i.assetA.1 = c.tokenA ∧ i.assetB.1 = c.tokenB := by
  obtain ⟨I, -⟩ := run_inv hh (Phoenix.World.genesis_inv (h := h) g) hp
  obtain ⟨-, a2⟩ := run_fac hh F (Phoenix.World.genesis_inv (h := h) g) hp
  have e0 : ∀ x y, regPair w0 F x y = none := by intro x y; unfold regPair; rw [g.fac]
  simp only [e0, reduceCtorEq, false_or] at a2
  have := (a2 c.tokenA c.tokenB c.pool).mpr hc
  cases hf : (run h w0 ts).fac F with
  | none => simp [regPair, hf] at this
  | some f =>
    simp only [regPair, hf] at this
    obtain ⟨-, -, k, -⟩ := (I.refs.fac F f hf).pair _ _ _ this
    rcases k with ⟨e, p, hp, k1, k2⟩ | ⟨e, p, hp, k1, k2⟩
    · exact ⟨⟨c.pool, (p.cfg.tokenA, p.resA), (p.cfg.tokenB, p.resB), (p.cfg.shareToken, p.total), p.cfg.stakeContract,
        p.cfg.totalFeeBps⟩, ⟨rfl, .inl ⟨e, p, hp, rfl, rfl, rfl, rfl, rfl⟩⟩, k1, k2⟩
    · exact ⟨⟨c.pool, (p.cfg.tokenA, p.resA), (p.cfg.tokenB, p.resB), (p.cfg.shareToken, p.total), p.cfg.stakeContract,
        p.cfg.totalFeeBps⟩, ⟨rfl, .inr ⟨e, p, hp, rfl, rfl, rfl, rfl, rfl⟩⟩, k1, k2⟩

theorem describes_inj {w : World} {P : Addr} {i j : PoolInfo} (k : Describes w P i) (l : Describes w P j) : i = j := by
  rw [← poolInfo_ok] at k l
  rw [k] at l; exact ok_inj.mp l

/-- **C90** In every reachable state `query_all_pools_details` of an initialised factory answers,
and the answer lists exactly the pools created through it, in order, each with the tokens it was
created for and its present reserves, supply, stake contract and fee. -/
theorem C90_all_pools_details (hh : HostOK h acct) (g : Genesis acct w0) {ts : List Tx} (hp : ∀ t ∈ ts, Possible acct t)
    {F : Addr} {l : List Addr} (hq : queryPools (run h w0 ts) F = .ok l) :
    ∃ r, allPoolsDetails (run h w0 ts) F = .ok r ∧
      List.Forall₂ (fun c i => Describes (run h w0 ts) c.pool i ∧ i.assetA.1 = c.tokenA ∧ i.assetB.1 = c.tokenB)
        (created h F w0 ts) r := by
  have hl := (C43_pools_exact hh g hp hq).1
  have key : ∀ cs : List Listing, (∀ c ∈ cs, c ∈ created h F w0 ts) → ∃ r, List.Forall₂ (fun (c : Listing) i =>
      Describes (run h w0 ts) c.pool i ∧ i.assetA.1 = c.tokenA ∧ i.assetB.1 = c.tokenB) cs r := by
    intro cs
    induction cs with
    | nil => exact fun _ => ⟨[], .nil⟩
    | cons c cs ih =>
      intro hc
      obtain ⟨i, hi⟩ := listing_described hh g hp (hc c (by simp))
      obtain ⟨r, hr⟩ := ih (fun d hd => hc d (by simp [hd]))
      exact ⟨i :: r, .cons hi hr⟩
  obtain ⟨r, hr⟩ := key (created h F w0 ts) (fun _ k => k)
  refine ⟨r, ?_, hr⟩
  unfold queryPools at hq
  simp only [bind_ok, ok_inj] at hq
  obtain ⟨_, -, f, hf, rfl⟩ := hq
  unfold allPoolsDetails
  simp only [bind_ok, detailsLoop_ok]
  refine ⟨f, hf, r, by simp, ?_⟩
  rw [hl, List.forall₂_map_left_iff]
  exact hr.imp fun _ _ k => k.1

/-- **C90** `query_pool_details` answers for a pool of the factory what `query_all_pools_details`
lists for it, and for any other pool its present state as well; for an address without an
initialised pool it fails. -/
theorem C90_pool_details {w : World} {P : Addr} {i : PoolInfo} : poolDetails w P = .ok i ↔ Describes w P i := poolInfo_ok

/-! ### The portfolio -/

theorem sumStakes_ok : ∀ {l : List Stake.Entry} {acc s : Int}, sumStakes l acc = .ok s → s = acc + (l.map (·.amount)).sum
  | [], acc, s, k => by simp only [sumStakes, ok_inj] at k; simp [k]
  | e :: l, acc, s, k => by
    simp only [sumStakes, bind_ok, addI_ok] at k
    obtain ⟨a, ⟨-, rfl⟩, k⟩ := k
    rw [sumStakes_ok k]; simp only [List.map_cons, List.sum_cons]; omega

theorem loop_exact {w : World} {user : Addr} {staking : Bool} : ∀ {l : List Addr} {q q' : Portfolio},
    portfolioLoop w user staking l q = .ok q' → ∃ is : List PoolInfo, List.Forall₂ (Describes w) l is ∧
      (∀ i ∈ is, ∃ v, worth w i user = .ok v) ∧
      q'.lp = q.lp ++ is.filterMap (fun i => if 0 < lpOf w i user then (worth w i user).toOption else none) ∧
      q'.stakes = q.stakes ++ if staking then
        (is.filter (fun i => stakesOf w i.stake user ≠ [])).map (fun i => (i.stake, stakesOf w i.stake user)) else []
  | [], q, q', k => by
    simp only [portfolioLoop, ok_inj] at k
    subst k
    exact ⟨[], .nil, by simp, by simp, by simp⟩
  | P :: l, q, q', k => by
    simp only [portfolioLoop, bind_ok, poolInfo_ok, addI_ok] at k
    obtain ⟨i, hi, _, -, _, -, st, hst, tot, ⟨-, rfl⟩, v, hv, k⟩ := k
    obtain ⟨is, h1, h2, h3, h4⟩ := loop_exact k
    have e := sumStakes_ok hst
    have et : w.led.bal i.share.1 user + st = lpOf w i user := by
      rw [e]; simp only [lpOf, stakesOf, Stake.queryStaked, Int.zero_add]
    have hw : worth w i user = .ok v := by unfold worth; rw [hi.1, ← et]; exact hv
    refine ⟨i :: is, .cons hi h1, ?_, ?_, ?_⟩
    · intro j hj
      rcases List.mem_cons.mp hj with rfl | hj
      · exact ⟨v, hw⟩
      · exact h2 j hj
    · rw [h3]; simp only [Portfolio.add, et, List.filterMap_cons, hw]
      by_cases hpos : 0 < lpOf w i user <;> simp [hpos, Except.toOption]
    · rw [h4]; simp only [Portfolio.add]
      change (if staking = true ∧ stakesOf w i.stake user ≠ [] then q.stakes ++ [(i.stake, stakesOf w i.stake user)] else q.stakes) ++ _ = _
      cases staking
      · simp
      · by_cases hz : stakesOf w i.stake user = [] <;> simp [hz]

/-- **C90** What `query_user_portfolio` answers: going through the factory's pools in order of
creation, one entry for each pool in which the user owns LP shares, in the wallet or staked, with the
amounts that `query_share` announces for all of these shares together; and, if asked for, the
recorded stakes at each pool's stake contract where the user has any. -/
theorem C90_portfolio_exact {w : World} {F user : Addr} {staking : Bool} {q : Portfolio} {l : List Addr}
    (hl : queryPools w F = .ok l) (hq : portfolio w F user staking = .ok q) :
    ∃ is : List PoolInfo, List.Forall₂ (Describes w) l is ∧
      (∀ i ∈ is, ∃ v, worth w i user = .ok v) ∧
      q.lp = is.filterMap (fun i => if 0 < lpOf w i user then (worth w i user).toOption else none) ∧
      q.stakes = if staking then
        (is.filter (fun i => stakesOf w i.stake user ≠ [])).map (fun i => (i.stake, stakesOf w i.stake user)) else [] := by
  unfold portfolio at hq
  unfold queryPools at hl
  simp only [bind_ok, ok_inj] at hq hl
  obtain ⟨f, hf, hq⟩ := hq
  obtain ⟨_, -, f', hf', rfl⟩ := hl
  rw [hf] at hf'; cases hf'
  obtain ⟨is, h1, h2, h3, h4⟩ := loop_exact hq
  exact ⟨is, h1, h2, by simpa using h3, by simpa using h4⟩

/-! ### No share is counted twice -/

theorem staked_eq {w : World} {i : PoolInfo} (k : Facts acct w i) (u : Addr) :
    ((stakesOf w i.stake u).map (·.amount)).sum = ((w.stake i.stake).info u).total := (k.inv.sum u).symm

theorem lpOf_sum {w : World} {i : PoolInfo} (k : Facts acct w i) (hlp : i.share.1 ∉ (w.stake i.stake).dists)
    (U : Finset Addr) (hU : i.stake ∉ U) : ∑ u ∈ U, lpOf w i u ≤ i.share.2 := by
  have h1 := k.cover (insert i.stake U)
  rw [Finset.sum_insert hU] at h1
  obtain ⟨cfg, hc, he⟩ := k.stake.2
  have h2 := k.inv.lp cfg hc (by rw [he]; exact hlp)
  rw [he] at h2
  have h3 := k.inv.cover U
  simp only at h2 h3
  unfold lpOf
  rw [Finset.sum_add_distrib]
  simp only [staked_eq k]
  omega

theorem lpOf_nonneg {w : World} {i : PoolInfo} (k : Facts acct w i) (u : Addr) : 0 ≤ lpOf w i u := by
  have h1 := k.inv.led.nonneg i.share.1 u
  have h2 := k.inv.total_nonneg u
  unfold lpOf; rw [staked_eq k]
  simp only at h1 h2
  omega

theorem worth_le {w : World} {i : PoolInfo} (k : Facts acct w i) (hd : Describes w i.pool i) {u : Addr}
    {v : (Addr × Int) × (Addr × Int)} (hv : worth w i u = .ok v) :
    v.1.1 = i.assetA.1 ∧ v.2.1 = i.assetB.1 ∧ 0 ≤ v.1.2 ∧ 0 ≤ v.2.2 ∧
    v.1.2 * i.share.2 ≤ i.assetA.2 * lpOf w i u ∧ v.2.2 * i.share.2 ≤ i.assetB.2 * lpOf w i u ∧
    (i.share.2 = 0 → v.1.2 = 0 ∧ v.2.2 = 0) := by
  unfold worth at hv
  rw [poolShare_eq hd] at hv
  unfold ratioOf at hv
  have n := lpOf_nonneg k u
  by_cases hz : i.share.2 = 0
  · rw [if_neg (by simpa using hz)] at hv
    simp only [bind_ok, ok_inj] at hv
    obtain ⟨r, rfl, a, ha, b, hb, rfl⟩ := hv
    have ea := Dec.mulInt_val ha
    have eb := Dec.mulInt_val hb
    simp at ea eb
    subst ea eb
    have := k.a0; have := k.b0
    exact ⟨rfl, rfl, le_refl _, le_refl _, by simp; positivity, by simp; positivity, fun _ => ⟨rfl, rfl⟩⟩
  · rw [if_pos hz] at hv
    simp only [bind_ok, ok_inj] at hv
    obtain ⟨r, hr, a, ha, b, hb, rfl⟩ := hv
    have hT : 0 < i.share.2 := by have := k.t0; omega
    have er := (Dec.fromRatio_ok.mp hr).2.2.2
    have ea := Dec.mulInt_val ha
    have eb := Dec.mulInt_val hb
    rw [← er] at ea eb
    have sA := share_bounds (res := i.assetA.2) (s := lpOf w i u) k.a0 n hT
    have sB := share_bounds (res := i.assetB.2) (s := lpOf w i u) k.b0 n hT
    rw [← ea] at sA
    rw [← eb] at sB
    exact ⟨rfl, rfl, sA.1, sB.1, sA.2.1, sB.2.1, fun e => absurd e hz⟩

/-- **C90** No share is counted twice: in every reachable state the LP shares that the portfolios
of any set of accounts count for one pool do not exceed the pool's supply, and the amounts they
announce for it do not exceed its reserves.  (As long as the pool's LP token is not itself a
reward token of its stake contract.) -/
theorem C90_portfolios_within_reserves (hh : HostOK h acct) (g : Genesis acct w0) {ts : List Tx} (hp : ∀ t ∈ ts, Possible acct t)
    {P : Addr} {i : PoolInfo} (hi : Describes (run h w0 ts) P i)
    (hlp : i.share.1 ∉ ((run h w0 ts).stake i.stake).dists) (U : Finset Addr) (hU : ∀ u ∈ U, acct u)
    (v : Addr → (Addr × Int) × (Addr × Int)) (hv : ∀ u ∈ U, worth (run h w0 ts) i u = .ok (v u)) :
    ∑ u ∈ U, lpOf (run h w0 ts) i u ≤ i.share.2 ∧
    (∀ u ∈ U, (v u).1.1 = i.assetA.1 ∧ (v u).2.1 = i.assetB.1 ∧ 0 ≤ (v u).1.2 ∧ 0 ≤ (v u).2.2) ∧
    ∑ u ∈ U, (v u).1.2 ≤ i.assetA.2 ∧ ∑ u ∈ U, (v u).2.2 ≤ i.assetB.2 := by
  obtain ⟨I, -⟩ := run_inv hh (Phoenix.World.genesis_inv (h := h) g) hp
  have k := facts I hi
  have hd : Describes (run h w0 ts) i.pool i := by rw [hi.1]; exact hi
  have hs := lpOf_sum k hlp U (fun e => k.nacct (hU _ e))
  have hw := fun u hu => worth_le k hd (hv u hu)
  refine ⟨hs, fun u hu => ⟨(hw u hu).1, (hw u hu).2.1, (hw u hu).2.2.1, (hw u hu).2.2.2.1⟩, ?_, ?_⟩
  · by_cases hz : i.share.2 = 0
    · rw [Finset.sum_eq_zero (fun u hu => ((hw u hu).2.2.2.2.2.2 hz).1)]; exact k.a0
    · have hT : 0 < i.share.2 := by have := k.t0; omega
      have : (∑ u ∈ U, (v u).1.2) * i.share.2 ≤ i.assetA.2 * i.share.2 := by
        rw [Finset.sum_mul]
        calc ∑ u ∈ U, (v u).1.2 * i.share.2 ≤ ∑ u ∈ U, i.assetA.2 * lpOf (run h w0 ts) i u :=
              Finset.sum_le_sum (fun u hu => (hw u hu).2.2.2.2.1)
          _ = i.assetA.2 * ∑ u ∈ U, lpOf (run h w0 ts) i u := by rw [Finset.mul_sum]
          _ ≤ _ := mul_le_mul_of_nonneg_left hs k.a0
      exact le_of_mul_le_mul_right this hT
  · by_cases hz : i.share.2 = 0
    · rw [Finset.sum_eq_zero (fun u hu => ((hw u hu).2.2.2.2.2.2 hz).2)]; exact k.b0
    · have hT : 0 < i.share.2 := by have := k.t0; omega
      have : (∑ u ∈ U, (v u).2.2) * i.share.2 ≤ i.assetB.2 * i.share.2 := by
        rw [Finset.sum_mul]
        calc ∑ u ∈ U, (v u).2.2 * i.share.2 ≤ ∑ u ∈ U, i.assetB.2 * lpOf (run h w0 ts) i u :=
              Finset.sum_le_sum (fun u hu => (hw u hu).2.2.2.2.2.1)
          _ = i.assetB.2 * ∑ u ∈ U, lpOf (run h w0 ts) i u := by rw [Finset.mul_sum]
          _ ≤ _ := mul_le_mul_of_nonneg_left hs k.b0
      exact le_of_mul_le_mul_right this hT

/-! ### When the query answers -/

theorem sumStakes_works : ∀ {l : List Stake.Entry} {acc : Int}, 0 ≤ acc → (∀ e ∈ l, 0 < e.amount) →
    acc + (l.map (·.amount)).sum ≤ I128_MAX → ∃ s, sumStakes l acc = .ok s
  | [], acc, _, _, _ => ⟨acc, rfl⟩
  | e :: l, acc, h0, hpos, hm => by
    have he := hpos e (by simp)
    have hl : 0 ≤ (l.map (·.amount)).sum := by
      apply List.sum_nonneg
      intro z hz
      obtain ⟨x, hx, rfl⟩ := List.mem_map.mp hz
      exact (hpos x (by simp [hx])).le
    simp only [List.map_cons, List.sum_cons] at hm
    obtain ⟨s, hs⟩ := sumStakes_works (l := l) (acc := acc + e.amount) (by omega) (fun x hx => hpos x (by simp [hx])) (by omega)
    refine ⟨s, ?_⟩
    simp only [sumStakes, bind_ok, addI_ok]
    exact ⟨_, ⟨by simp only [InI128, I128_MIN]; omega, rfl⟩, hs⟩

theorem worth_works {w : World} {i : PoolInfo} (k : Facts acct w i) (hd : Describes w i.pool i) {u : Addr}
    (hle : lpOf w i u ≤ i.share.2) (ks : lpOf w i u ≤ 170141183460469231731)
    (kA : i.assetA.2 ≤ 170141183460469231731) (kB : i.assetB.2 ≤ 170141183460469231731) : ∃ v, worth w i u = .ok v := by
  unfold worth
  rw [poolShare_eq hd]
  unfold ratioOf
  by_cases hz : i.share.2 = 0
  · rw [if_neg (by simpa using hz)]
    exact ⟨((i.assetA.1, 0), (i.assetB.1, 0)), by simp [Dec.mulInt, bind_ok]⟩
  · rw [if_pos hz]
    have hT : 0 < i.share.2 := by have := k.t0; omega
    obtain ⟨r, hr, -, -, y, hy⟩ := ratio_works k.a0 (lpOf_nonneg k u) hle hT kA ks
    obtain ⟨r', hr', -, -, y', hy'⟩ := ratio_works k.b0 (lpOf_nonneg k u) hle hT kB ks
    rw [hr] at hr'; cases hr'
    exact ⟨((i.assetA.1, y), (i.assetB.1, y')), by simp only [bind_ok, ok_inj]; exact ⟨r, hr, y, hy, y', hy', rfl⟩⟩

theorem loop_works {w : World} {user : Addr} {staking : Bool} (I : Inv h acct w) (hu : acct user) : ∀ {l : List Addr} (q : Portfolio),
    (∀ P ∈ l, ∃ i, Describes w P i ∧ i.share.1 ∉ (w.stake i.stake).dists ∧ lpOf w i user ≤ 170141183460469231731 ∧
      i.assetA.2 ≤ 170141183460469231731 ∧ i.assetB.2 ≤ 170141183460469231731) →
    ∃ q', portfolioLoop w user staking l q = .ok q'
  | [], q, _ => ⟨q, rfl⟩
  | P :: l, q, hl => by
    obtain ⟨i, hi, hd, ks, kA, kB⟩ := hl P (by simp)
    have k := facts I hi
    have hle := lpOf_sum k hd {user} (by simp only [Finset.mem_singleton]; exact fun e => k.nacct (e ▸ hu))
    rw [Finset.sum_singleton] at hle
    obtain ⟨v, hv⟩ := worth_works k (by rw [hi.1]; exact hi) hle ks kA kB
    have hb := k.inv.led.nonneg i.share.1 user
    have hs0 : 0 ≤ ((stakesOf w i.stake user).map (·.amount)).sum := by
      rw [staked_eq k]; exact k.inv.total_nonneg user
    have hmax : (170141183460469231731 : Int) ≤ I128_MAX := by decide
    simp only at hb
    have hks : w.led.bal i.share.1 user + ((stakesOf w i.stake user).map (·.amount)).sum ≤ 170141183460469231731 := ks
    obtain ⟨s, hs⟩ := sumStakes_works (l := (stakesOf w i.stake user)) (acc := 0) (le_refl _) (k.inv.pos user) (by omega)
    have es := sumStakes_ok hs
    obtain ⟨q', hq'⟩ := loop_works I hu (l := l) (q.add staking (w.led.bal i.share.1 user + s) v i.stake (stakesOf w i.stake user))
      (fun Q hQ => hl Q (by simp [hQ]))
    refine ⟨q', ?_⟩
    simp only [portfolioLoop, bind_ok, poolInfo_ok, expect_ok, addI_ok]
    refine ⟨i, hi, (), k.token, (), k.stake.1, s, hs, _, ⟨?_, rfl⟩, v, ?_, hq'⟩
    · simp only [InI128, I128_MIN]; omega
    · have : w.led.bal i.share.1 user + s = lpOf w i user := by unfold lpOf; omega
      rw [this, ← hi.1]; exact hv

/-- **C90** In every reachable state `query_user_portfolio` answers for every account that owns at
most 170141183460469231731 units (the 128-bit limit divided by 10^18) of each LP token, if the
reserves of the factory's pools are not above that either (and no LP token is a reward token of its own
stake contract). -/
theorem C90_portfolio_answers (hh : HostOK h acct) (g : Genesis acct w0) {ts : List Tx} (hp : ∀ t ∈ ts, Possible acct t)
    {F user : Addr} {l : List Addr} (hl : queryPools (run h w0 ts) F = .ok l) (hu : acct user) (staking : Bool)
    (hsmall : ∀ P ∈ l, ∀ i, Describes (run h w0 ts) P i → i.share.1 ∉ ((run h w0 ts).stake i.stake).dists ∧
      lpOf (run h w0 ts) i user ≤ 170141183460469231731 ∧
      i.assetA.2 ≤ 170141183460469231731 ∧ i.assetB.2 ≤ 170141183460469231731) :
    ∃ q, portfolio (run h w0 ts) F user staking = .ok q := by
  obtain ⟨I, -⟩ := run_inv hh (Phoenix.World.genesis_inv (h := h) g) hp
  have hl' := (C43_pools_exact hh g hp hl).1
  have hd : ∀ P ∈ l, ∃ i, Describes (run h w0 ts) P i := by
    intro P hP
    rw [hl'] at hP
    obtain ⟨c, hc, rfl⟩ := List.mem_map.mp hP
    obtain ⟨i, hi, -⟩ := listing_described hh g hp hc
    exact ⟨i, hi⟩
  unfold queryPools at hl
  simp only [bind_ok, ok_inj] at hl
  obtain ⟨_, -, f, hf, rfl⟩ := hl
  obtain ⟨q, hq⟩ := loop_works (staking := staking) I hu (l := f.pools) ⟨[], []⟩ (fun P hP => by
    obtain ⟨i, hi⟩ := hd P hP
    exact ⟨i, hi, hsmall P hP i hi⟩)
  refine ⟨q, ?_⟩
  unfold portfolio
  simp only [bind_ok]
  exact ⟨f, hf, hq⟩

/-- **C90** The limit is real: an account that owns more of one LP token than that gets no
portfolio at all, not even for its other pools. -/
theorem C90_large_holder_blocked {w : World} {F user P : Addr} {staking : Bool} {l : List Addr} {i : PoolInfo}
    (hl : queryPools w F = .ok l) (hP : P ∈ l) (hi : Describes w P i) (hT : 0 < i.share.2)
    (hbig : 170141183460469231731 < lpOf w i user) (q : Portfolio) : portfolio w F user staking ≠ .ok q := by
  intro hq
  obtain ⟨is, h1, h2, -, -⟩ := C90_portfolio_exact hl hq
  obtain ⟨j, hj, hji⟩ : ∃ j ∈ is, Describes w P j := by
    clear h2 hl
    induction h1 with
    | nil => simp at hP
    | @cons Q j l' is' hd _ ih =>
      rcases List.mem_cons.mp hP with rfl | hP
      · exact ⟨j, by simp, hd⟩
      · obtain ⟨j', h1, h2⟩ := ih hP
        exact ⟨j', by simp [h1], h2⟩
  cases describes_inj hi hji
  obtain ⟨v, hv⟩ := h2 i hj
  unfold worth at hv
  rw [poolShare_eq (by rw [hi.1]; exact hi)] at hv
  unfold ratioOf at hv
  rw [if_pos (by omega)] at hv
  simp only [bind_ok] at hv
  obtain ⟨r, hr, -⟩ := hv
  have := (Dec.fromRatio_ok.mp hr).2.1
  have hone : Dec.ONE = 1000000000000000000 := by decide
  simp only [InI128, I128_MIN, I128_MAX, hone] at this
  omega

/-! ### Examples -/

/-- account 1 stakes part of its shares of the first pool, twice, and account 2 joins that pool -/
def ex_staked : List Tx :=
  [ ⟨Example.by' 1, .stake 20602021 (.bond 1 400000)⟩,
    ⟨{ now := 50, seq := 20, signed := fun x => x == 1 }, .stake 20602021 (.bond 1 100000)⟩,
    ⟨Example.by' 2, .xyk Example.pool1 (.provide 2 (some 500000) none (some 1000000) none none none)⟩ ]

def ex_world : World := run Example.host Example.start (Example.setup ++ Example.liquidity ++ ex_staked)

theorem ex_possible : ∀ t ∈ Example.setup ++ Example.liquidity ++ ex_staked, Possible Example.acct t := by
  intro t ht
  rcases List.mem_append.mp ht with k | k
  · exact ex_setup t k
  · simp only [ex_staked, List.mem_cons, List.not_mem_nil, or_false] at k
    rcases k with rfl | rfl | rfl
    · exact possible_by (by decide)
    · refine ⟨rfl, fun a ha => ?_⟩
      simp only [beq_iff_eq] at ha; subst ha; show (1 : Nat) < 20; decide
    · exact possible_by (by decide)

/-- the portfolio of account 1: all of its 1413213 shares of the first pool, of which 500000 are
staked, and its shares of the second -/
example : (queryPools ex_world 50).toOption = some [Example.pool1, Example.pool2] ∧
    (portfolio ex_world 50 1 true).toOption.map (·.lp) =
      some [((20, 999293), (21, 1998586)), ((21, 1000000), (22, 1000000))] ∧
    (portfolio ex_world 50 1 true).toOption.map (·.stakes) = some [(20602021, [⟨400000, 10⟩, ⟨100000, 50⟩])] ∧
    (portfolio ex_world 50 1 false).toOption.map (·.stakes) = some [] ∧
    (portfolio ex_world 50 2 true).toOption.map (·.lp) = some [((20, 499999), (21, 999999))] ∧
    (allPoolsDetails ex_world 50).toOption = some
      [⟨Example.pool1, (20, 1500000), (21, 3000000), (10602062, 2121319), 20602021, 30⟩,
       ⟨Example.pool2, (21, 1000000), (22, 1000000), (10602165, 1999000), 20602122, 30⟩] := by decide +kernel

end Phoenix.Props.Portfolio
