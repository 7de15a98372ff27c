import Verif.Lemmas.Project2
import Verif.Props.World
import Verif.Props.PoolSys
import Verif.Props.StableSys
import Verif.Props.Stake
/-!
Each contract on its own in a history of the whole protocol.
-/
namespace Phoenix.Props.Project
open Phoenix Phoenix.World Phoenix.World.Spec

variable {h : Host} {acct : Accounts} {w0 : World}

/-- **C153** A staking contract in any history `ts ++ us` of the whole protocol: what it stores and what everybody holds is the outcome of a
history `vs ++ ws` of that contract and the tokens alone, from a starting point as the theorems about the contract alone
assume.  In it all calls succeed, nobody signs for the contract, the calls of the contract are exactly those made in the
protocol, in the same order, by the same signers and at the same times, and the clock runs on.  It passes through the state
after `ts`. -/
theorem C153_stake_alone (hh : HostOK h acct) (g : World.Spec.Genesis acct w0) {ts us : List World.Tx} (hp : ∀ t ∈ ts ++ us, World.Spec.Possible acct t)
    {A : Addr} (hA : (World.run h w0 (ts ++ us)).code A = .stake) :
    ∃ (L0 L1 : Ledger) (vs ws : List Stake.Tx), SeenFrom A w0 L0 ∧ SeenFrom A (World.run h w0 ts) L1 ∧
      Stake.Spec.Genesis A ⟨Stake.fresh, L0⟩ ∧ (∀ t ∈ vs ++ ws, Stake.Spec.Possible A t) ∧
      vs.foldlM (Stake.step A) ⟨Stake.fresh, L0⟩ = .ok ⟨(World.run h w0 ts).stake A, L1⟩ ∧
      ws.foldlM (Stake.step A) ⟨(World.run h w0 ts).stake A, L1⟩ =
        .ok ⟨(World.run h w0 (ts ++ us)).stake A, (World.run h w0 (ts ++ us)).led⟩ ∧
      vs.filterMap stakePart = callsOf h (stakeCall h A) w0 ts ∧ ws.filterMap stakePart = callsOf h (stakeCall h A) (World.run h w0 ts) us ∧
      (Ordered ((ts ++ us).map (·.ctx.now)) → Ordered ((vs ++ ws).map (·.ctx.now))) := by
  obtain ⟨L0, L1, vs, ws, s0, s1, d0, d1, o0, o1, od, nn⟩ := histories hh g hp (by simp [Modelled]) hA
  obtain ⟨a1, a2, a3, a4⟩ := d0.stake
  obtain ⟨b1, b2, b3, b4⟩ := d1.stake
  simp only [here, g.stake] at a1 b1
  refine ⟨L0, L1, _, _, s0, s1, ⟨rfl, nn, s0.none⟩, fun t k => ?_, a1, b1, by rw [a3, o0.stake], by rw [b3, o1.stake], fun k => ?_⟩
  · rcases List.mem_append.mp k with k | k
    · exact a2 t k
    · exact b2 t k
  · rw [List.map_append, a4, b4, ← List.map_append]; exact od k

/-- **C153** The same for a vesting contract. -/
theorem C153_vesting_alone (hh : HostOK h acct) (g : World.Spec.Genesis acct w0) {ts us : List World.Tx} (hp : ∀ t ∈ ts ++ us, World.Spec.Possible acct t)
    {A : Addr} (hA : (World.run h w0 (ts ++ us)).code A = .vesting) :
    ∃ (L0 L1 : Ledger) (vs ws : List Vesting.Tx), SeenFrom A w0 L0 ∧ SeenFrom A (World.run h w0 ts) L1 ∧
      Vesting.Spec.Genesis A ⟨none, L0⟩ ∧ (∀ t ∈ vs ++ ws, Vesting.Spec.Possible A t) ∧
      vs.foldlM (Vesting.step A) ⟨none, L0⟩ = .ok ⟨(World.run h w0 ts).vest A, L1⟩ ∧
      ws.foldlM (Vesting.step A) ⟨(World.run h w0 ts).vest A, L1⟩ =
        .ok ⟨(World.run h w0 (ts ++ us)).vest A, (World.run h w0 (ts ++ us)).led⟩ ∧
      vs.filterMap vestPart = callsOf h (vestCall A) w0 ts ∧ ws.filterMap vestPart = callsOf h (vestCall A) (World.run h w0 ts) us ∧
      (Ordered ((ts ++ us).map (·.ctx.now)) → Ordered ((vs ++ ws).map (·.ctx.now))) := by
  obtain ⟨L0, L1, vs, ws, s0, s1, d0, d1, o0, o1, od, nn⟩ := histories hh g hp (by simp [Modelled]) hA
  obtain ⟨a1, a2, a3, a4⟩ := d0.vest
  obtain ⟨b1, b2, b3, b4⟩ := d1.vest
  simp only [here, g.vest] at a1 b1
  refine ⟨L0, L1, _, _, s0, s1, ⟨rfl, nn, s0.none⟩, fun t k => ?_, a1, b1, by rw [a3, o0.vest], by rw [b3, o1.vest], fun k => ?_⟩
  · rcases List.mem_append.mp k with k | k
    · exact a2 t k
    · exact b2 t k
  · rw [List.map_append, a4, b4, ← List.map_append]; exact od k

/-- **C153** The same for a reward contract. -/
theorem C153_rewards_alone (hh : HostOK h acct) (g : World.Spec.Genesis acct w0) {ts us : List World.Tx} (hp : ∀ t ∈ ts ++ us, World.Spec.Possible acct t)
    {A : Addr} (hA : (World.run h w0 (ts ++ us)).code A = .rewards) :
    ∃ (L0 L1 : Ledger) (vs ws : List Rewards.Tx), SeenFrom A w0 L0 ∧ SeenFrom A (World.run h w0 ts) L1 ∧
      Rewards.Spec.Genesis A ⟨Rewards.fresh, L0⟩ ∧ (∀ t ∈ vs ++ ws, Rewards.Spec.Possible A t) ∧
      vs.foldlM (Rewards.step A) ⟨Rewards.fresh, L0⟩ = .ok ⟨(World.run h w0 ts).rew A, L1⟩ ∧
      ws.foldlM (Rewards.step A) ⟨(World.run h w0 ts).rew A, L1⟩ =
        .ok ⟨(World.run h w0 (ts ++ us)).rew A, (World.run h w0 (ts ++ us)).led⟩ ∧
      vs.filterMap rewPart = callsOf h (rewCall A) w0 ts ∧ ws.filterMap rewPart = callsOf h (rewCall A) (World.run h w0 ts) us ∧
      (Ordered ((ts ++ us).map (·.ctx.now)) → Ordered ((vs ++ ws).map (·.ctx.now))) := by
  obtain ⟨L0, L1, vs, ws, s0, s1, d0, d1, o0, o1, od, nn⟩ := histories hh g hp (by simp [Modelled]) hA
  obtain ⟨a1, a2, a3, a4⟩ := d0.rew
  obtain ⟨b1, b2, b3, b4⟩ := d1.rew
  simp only [here, g.rew] at a1 b1
  refine ⟨L0, L1, _, _, s0, s1, ⟨rfl, nn, s0.none⟩, fun t k => ?_, a1, b1, by rw [a3, o0.rew], by rw [b3, o1.rew], fun k => ?_⟩
  · rcases List.mem_append.mp k with k | k
    · exact a2 t k
    · exact b2 t k
  · rw [List.map_append, a4, b4, ← List.map_append]; exact od k

/-- **C153** The same for a constant product pool, however it is reached: directly, by a router or by a trader contract. -/
theorem C153_pool_alone (hh : HostOK h acct) (g : World.Spec.Genesis acct w0) {ts us : List World.Tx} (hp : ∀ t ∈ ts ++ us, World.Spec.Possible acct t)
    {A : Addr} (hA : (World.run h w0 (ts ++ us)).code A = .xyk) :
    ∃ (L0 L1 : Ledger) (vs ws : List Pool.Tx), SeenFrom A w0 L0 ∧ SeenFrom A (World.run h w0 ts) L1 ∧
      Phoenix.Spec.Genesis A ⟨none, L0⟩ ∧ (∀ t ∈ vs ++ ws, Phoenix.Spec.Possible A t) ∧
      vs.foldlM (Pool.step A) ⟨none, L0⟩ = .ok ⟨(World.run h w0 ts).xyk A, L1⟩ ∧
      ws.foldlM (Pool.step A) ⟨(World.run h w0 ts).xyk A, L1⟩ =
        .ok ⟨(World.run h w0 (ts ++ us)).xyk A, (World.run h w0 (ts ++ us)).led⟩ ∧
      (Ordered ((ts ++ us).map (·.ctx.now)) → Ordered ((vs ++ ws).map (·.ctx.now))) := by
  obtain ⟨L0, L1, vs, ws, s0, s1, d0, d1, o0, o1, od, nn⟩ := histories hh g hp (by simp [Modelled]) hA
  obtain ⟨a1, a2, a4⟩ := d0.xyk
  obtain ⟨b1, b2, b4⟩ := d1.xyk
  simp only [here, g.xyk] at a1 b1
  refine ⟨L0, L1, _, _, s0, s1, ⟨rfl, nn, s0.none⟩, fun t k => ?_, a1, b1, fun k => ?_⟩
  · rcases List.mem_append.mp k with k | k
    · exact a2 t k
    · exact b2 t k
  · rw [List.map_append, a4, b4, ← List.map_append]; exact od k

/-- **C153** The same for a stable pool. -/
theorem C153_stable_alone (hh : HostOK h acct) (g : World.Spec.Genesis acct w0) {ts us : List World.Tx} (hp : ∀ t ∈ ts ++ us, World.Spec.Possible acct t)
    {A : Addr} (hA : (World.run h w0 (ts ++ us)).code A = .stable) :
    ∃ (L0 L1 : Ledger) (vs ws : List Stable.Tx), SeenFrom A w0 L0 ∧ SeenFrom A (World.run h w0 ts) L1 ∧
      Stable.Spec.Genesis A ⟨none, L0⟩ ∧ (∀ t ∈ vs ++ ws, Stable.Spec.Possible A t) ∧
      vs.foldlM (Stable.step A) ⟨none, L0⟩ = .ok ⟨(World.run h w0 ts).stable A, L1⟩ ∧
      ws.foldlM (Stable.step A) ⟨(World.run h w0 ts).stable A, L1⟩ =
        .ok ⟨(World.run h w0 (ts ++ us)).stable A, (World.run h w0 (ts ++ us)).led⟩ ∧
      (Ordered ((ts ++ us).map (·.ctx.now)) → Ordered ((vs ++ ws).map (·.ctx.now))) := by
  obtain ⟨L0, L1, vs, ws, s0, s1, d0, d1, o0, o1, od, nn⟩ := histories hh g hp (by simp [Modelled]) hA
  obtain ⟨a1, a2, a4⟩ := d0.stable
  obtain ⟨b1, b2, b4⟩ := d1.stable
  simp only [here, g.stable] at a1 b1
  refine ⟨L0, L1, _, _, s0, s1, ⟨rfl, nn, s0.none⟩, fun t k => ?_, a1, b1, fun k => ?_⟩
  · rcases List.mem_append.mp k with k | k
    · exact a2 t k
    · exact b2 t k
  · rw [List.map_append, a4, b4, ← List.map_append]; exact od k

/-- **C153** Whatever holds of a staking contract after every possible history of it alone holds of every staking
contract of the protocol after every possible history of the protocol. -/
theorem C153_stake_everything (hh : HostOK h acct) (g : World.Spec.Genesis acct w0) {ts : List World.Tx} (hp : ∀ t ∈ ts, World.Spec.Possible acct t)
    {A : Addr} (hA : (World.run h w0 ts).code A = .stake) {Q : Stake.Sys → Prop}
    (hQ : ∀ s us, Stake.Spec.Genesis A s → (∀ t ∈ us, Stake.Spec.Possible A t) → Q (Stake.run A s us)) :
    Q ⟨(World.run h w0 ts).stake A, (World.run h w0 ts).led⟩ := by
  obtain ⟨L0, L1, vs, ws, -, -, gn, po, r1, r2, -⟩ := C153_stake_alone hh g (ts := ts) (us := []) (by simpa using hp) (by simpa using hA)
  have e := foldl_of_foldlM (e := Stake.exec A) (fun s t s' k => by simp only [Stake.exec, k]) (foldlM_app r1 r2)
  have := hQ _ _ gn po
  unfold Stake.run at this
  rw [e] at this
  simpa using this

/-- **C153** The same for vesting contracts. -/
theorem C153_vesting_everything (hh : HostOK h acct) (g : World.Spec.Genesis acct w0) {ts : List World.Tx} (hp : ∀ t ∈ ts, World.Spec.Possible acct t)
    {A : Addr} (hA : (World.run h w0 ts).code A = .vesting) {Q : Vesting.Sys → Prop}
    (hQ : ∀ s us, Vesting.Spec.Genesis A s → (∀ t ∈ us, Vesting.Spec.Possible A t) → Q (Vesting.run A s us)) :
    Q ⟨(World.run h w0 ts).vest A, (World.run h w0 ts).led⟩ := by
  obtain ⟨L0, L1, vs, ws, -, -, gn, po, r1, r2, -⟩ := C153_vesting_alone hh g (ts := ts) (us := []) (by simpa using hp) (by simpa using hA)
  have e := foldl_of_foldlM (e := Vesting.exec A) (fun s t s' k => by simp only [Vesting.exec, k]) (foldlM_app r1 r2)
  have := hQ _ _ gn po
  unfold Vesting.run at this
  rw [e] at this
  simpa using this

/-- **C153** The same for reward contracts. -/
theorem C153_rewards_everything (hh : HostOK h acct) (g : World.Spec.Genesis acct w0) {ts : List World.Tx} (hp : ∀ t ∈ ts, World.Spec.Possible acct t)
    {A : Addr} (hA : (World.run h w0 ts).code A = .rewards) {Q : Rewards.Sys → Prop}
    (hQ : ∀ s us, Rewards.Spec.Genesis A s → (∀ t ∈ us, Rewards.Spec.Possible A t) → Q (Rewards.run A s us)) :
    Q ⟨(World.run h w0 ts).rew A, (World.run h w0 ts).led⟩ := by
  obtain ⟨L0, L1, vs, ws, -, -, gn, po, r1, r2, -⟩ := C153_rewards_alone hh g (ts := ts) (us := []) (by simpa using hp) (by simpa using hA)
  have e := foldl_of_foldlM (e := Rewards.exec A) (fun s t s' k => by simp only [Rewards.exec, k]) (foldlM_app r1 r2)
  have := hQ _ _ gn po
  unfold Rewards.run at this
  rw [e] at this
  simpa using this

/-- **C153** The same for constant product pools. -/
theorem C153_pool_everything (hh : HostOK h acct) (g : World.Spec.Genesis acct w0) {ts : List World.Tx} (hp : ∀ t ∈ ts, World.Spec.Possible acct t)
    {A : Addr} (hA : (World.run h w0 ts).code A = .xyk) {Q : Pool.Sys → Prop}
    (hQ : ∀ s us, Phoenix.Spec.Genesis A s → (∀ t ∈ us, Phoenix.Spec.Possible A t) → Q (Pool.run A s us)) :
    Q ⟨(World.run h w0 ts).xyk A, (World.run h w0 ts).led⟩ := by
  obtain ⟨L0, L1, vs, ws, -, -, gn, po, r1, r2, -⟩ := C153_pool_alone hh g (ts := ts) (us := []) (by simpa using hp) (by simpa using hA)
  have e := foldl_of_foldlM (e := Pool.exec A) (fun s t s' k => by simp only [Pool.exec, k]) (foldlM_app r1 r2)
  have := hQ _ _ gn po
  unfold Pool.run at this
  rw [e] at this
  simpa using this

/-- **C153** The same for stable pools. -/
theorem C153_stable_everything (hh : HostOK h acct) (g : World.Spec.Genesis acct w0) {ts : List World.Tx} (hp : ∀ t ∈ ts, World.Spec.Possible acct t)
    {A : Addr} (hA : (World.run h w0 ts).code A = .stable) {Q : Stable.Sys → Prop}
    (hQ : ∀ s us, Stable.Spec.Genesis A s → (∀ t ∈ us, Stable.Spec.Possible A t) → Q (Stable.run A s us)) :
    Q ⟨(World.run h w0 ts).stable A, (World.run h w0 ts).led⟩ := by
  obtain ⟨L0, L1, vs, ws, -, -, gn, po, r1, r2, -⟩ := C153_stable_alone hh g (ts := ts) (us := []) (by simpa using hp) (by simpa using hA)
  have e := foldl_of_foldlM (e := Stable.exec A) (fun s t s' k => by simp only [Stable.exec, k]) (foldlM_app r1 r2)
  have := hQ _ _ gn po
  unfold Stable.run at this
  rw [e] at this
  simpa using this

/-- **C153** (an instance) In the whole protocol, once a constant product pool has issued shares, it holds a thousand of them itself
for ever, and never runs empty. -/
theorem C153_pool_never_empties (hh : HostOK h acct) (g : World.Spec.Genesis acct w0) {ts us : List World.Tx}
    (hp : ∀ t ∈ ts ++ us, World.Spec.Possible acct t) {A : Addr} {p : Pool.State} (hc : (World.run h w0 (ts ++ us)).code A = .xyk)
    (hA : (World.run h w0 ts).xyk A = some p) (hpos : 0 < p.total) :
    ∃ p', (World.run h w0 (ts ++ us)).xyk A = some p' ∧ 1000 ≤ p'.total ∧
      1000 ≤ (World.run h w0 (ts ++ us)).led.bal p'.cfg.shareToken A ∧ ¬ (p'.resA = 0 ∧ p'.resB = 0) := by
  obtain ⟨L0, L1, vs, ws, -, -, gn, po, r1, r2, -⟩ := C153_pool_alone hh g hp hc
  have ex : ∀ (s : Pool.Sys) (t : Pool.Tx) (s' : Pool.Sys), Pool.step A s t = .ok s' → Pool.exec A s t = s' :=
    fun s t s' k => by simp only [Pool.exec, k]
  have e1 : Pool.run A ⟨none, L0⟩ vs = _ := foldl_of_foldlM ex r1
  have e2 : Pool.run A ⟨none, L0⟩ (vs ++ ws) = _ := foldl_of_foldlM ex (foldlM_app r1 r2)
  have := C12_locked_for_ever gn vs ws (fun t k => po t (by simp [k])) (fun t k => po t (by simp [k])) (p := p)
    (by rw [e1]; exact hA) hpos
  rwa [e2] at this

/-- **C153** (an instance) In the whole protocol, the reserves of a stable pool are what it holds at least, and no set of accounts
holds more shares than it has issued. -/
theorem C153_stable_pool_backed (hh : HostOK h acct) (g : World.Spec.Genesis acct w0) {ts : List World.Tx}
    (hp : ∀ t ∈ ts, World.Spec.Possible acct t) {A : Addr} {p : Stable.State} (hc : (World.run h w0 ts).code A = .stable)
    (hA : (World.run h w0 ts).stable A = some p) (S : Finset Addr) :
    p.resA ≤ (World.run h w0 ts).led.bal p.cfg.tokenA A ∧ p.resB ≤ (World.run h w0 ts).led.bal p.cfg.tokenB A ∧
      ∑ a ∈ S, (World.run h w0 ts).led.bal p.cfg.shareToken a ≤ p.total := by
  have := C153_stable_everything hh g hp hc (Q := fun s => ∀ p, s.pool = some p → p.resA ≤ s.led.bal p.cfg.tokenA A ∧
    p.resB ≤ s.led.bal p.cfg.tokenB A ∧ Stable.Spec.lpHeld s p S ≤ p.total) (fun s us h0 hu p hp =>
      ⟨(Stable.C51_reserves_backed h0 us hu hp).1.2, (Stable.C51_reserves_backed h0 us hu hp).2.1.2,
        Stable.C51_supply_covers h0 us hu hp S⟩)
  exact this p hA

/-! In the example the factory creates a constant product pool with its staking contract and a stable pool, after and between
failing calls, both get liquidity, and then somebody stakes shares, fails to stake more than they have, and a vesting and a
reward contract are set up. -/

/-- the staking contract of the first pool -/
abbrev stake1 : Addr := 20602021

/-- the second part of the example -/
def exMore : List World.Tx :=
  [ ⟨Example.by' 1, .stake stake1 (.bond 1 400000)⟩,
    ⟨Example.by' 1, .stake stake1 (.bond 1 400000000)⟩,
    ⟨Example.by' 8, .vest 70 (.init 8 20 7 none)⟩,
    ⟨Example.by' 8, .rewards 80 (.init 8 stake1 21 7 1 1)⟩ ]

theorem exMore_possible : ∀ t ∈ (Example.setup ++ Example.liquidity) ++ exMore, World.Spec.Possible Example.acct t := by
  intro t ht
  rcases List.mem_append.mp ht with k | k
  · exact World.ex_setup t k
  · simp only [exMore, List.mem_cons, List.not_mem_nil, or_false] at k
    rcases k with rfl | rfl | rfl | rfl <;> exact World.possible_by (by decide)

example : HostOK Example.host Example.acct ∧ World.Spec.Genesis Example.acct Example.start := ⟨World.ex_host, World.ex_genesis⟩

example :
    let w := World.run Example.host Example.start ((Example.setup ++ Example.liquidity) ++ exMore)
    w.code stake1 = .stake ∧ w.code Example.pool1 = .xyk ∧ w.code Example.pool2 = .stable ∧ w.code 70 = .vesting ∧
    w.code 80 = .rewards ∧ ((w.xyk Example.pool1).map (·.total)) = some 1414213 ∧ (w.stake stake1).total = 400000 := by
  decide +kernel

/-- The calls that the staking contract gets are its initialisation, in the call that created the pool, and the stake that
went through; the vesting contract gets one call. -/
example :
    (callsOf Example.host (stakeCall Example.host stake1) Example.start (Example.setup ++ Example.liquidity)).map (fun x => match x.2 with | .init a l _ _ m o _ => some (a, l, m, o) | _ => none) =
      [some (8, 10602062, 6, 50)] ∧
    (callsOf Example.host (stakeCall Example.host stake1) (World.run Example.host Example.start (Example.setup ++ Example.liquidity))
      exMore).map (fun x => match x.2 with | .bond a n => some (a, n) | _ => none) = [some (1, 400000)] ∧
    (callsOf Example.host (vestCall 70) (World.run Example.host Example.start (Example.setup ++ Example.liquidity)) exMore).length = 1 := by
  refine ⟨by decide +kernel, by decide +kernel, by decide +kernel⟩

end Phoenix.Props.Project
