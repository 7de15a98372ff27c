import Verif.Lemmas.Accept
import Verif.Props.Vesting
import Verif.Props.World
/-!
Property C114: which calls the vesting contract accepts, in the whole protocol.
-/
namespace Phoenix.Props.World
open Phoenix Phoenix.World Phoenix.World.Spec

variable {h : Host} {acct : Accounts} {w0 w : World} {ts : List Tx} {V a : Addr} {c : Ctx} {v : Vesting.State}

/-- calls other than `mint`, which also asks for the token (helper) -/
theorem vest_iff {k : Vesting.Call} (hk : ∀ b x, k ≠ .mint b x) (hV : w.code V = .vesting) :
    Accepts h w c (.vest V k) ↔ ∃ s, Vesting.step V ⟨w.vest V, w.led⟩ (.vest c k) = .ok s := by
  unfold Accepts
  cases k <;> simp only [step, bind_ok, expect_ok, ok_inj]
  case mint b x => exact absurd rfl (hk b x)
  all_goals exact ⟨fun ⟨_, _, _, s, e, _⟩ => ⟨s, e⟩, fun ⟨s, e⟩ => ⟨_, (), hV, s, e, rfl⟩⟩

/-- **C114** A vesting contract can be initialised exactly once, by anybody, with or without a
minter. -/
theorem C114_initialize {t : Addr} {m : Nat} {mi : Option Vesting.Minter} (hV : (run h w0 ts).code V = .vesting) :
    Accepts h (run h w0 ts) c (.vest V (.init a t m mi)) ↔ (run h w0 ts).vest V = none := by
  rw [vest_iff (by simp) hV]
  simp only [Vesting.step, Vesting.init, bind_ok, req_ok, ok_inj]
  exact ⟨fun ⟨_, _, ⟨_, e, _⟩, _⟩ => e, fun e => ⟨_, _, ⟨(), e, rfl⟩, rfl⟩⟩

/-- the amount a schedule starts with (helper) -/
def amountOf (p : Addr × Curve) : Nat := (Vesting.validateSchedule p.2).toOption.getD 0

theorem amountOf_eq {p : Addr × Curve} {n : Nat} (e : Vesting.Spec.Vests p.2 n) : amountOf p = n := by
  unfold amountOf
  rw [Vesting.validateSchedule_ok.mpr e]; rfl

theorem createLoop_amounts {u u' : Vesting.State} {l : List (Addr × Curve)} {T T' : Nat} (hu : Vesting.StInv u)
    (e : Vesting.createLoop u T l = .ok (u', T')) :
    (∀ p ∈ l, Vesting.Spec.Vests p.2 (amountOf p) ∧ (Phoenix.Spec.stepsOf p.2).length < u.maxComplexity) ∧ T' = T + (l.map amountOf).sum := by
  induction l generalizing u T with
  | nil =>
    simp only [Vesting.createLoop, ok_inj, Prod.mk.injEq] at e
    simp [e.2]
  | cons p l ih =>
    obtain ⟨b, cv⟩ := p
    simp only [Vesting.createLoop, bind_ok, req_ok, add128_ok] at e
    obtain ⟨n, hn, _, h1, u1, h2, T1, ⟨_, rfl⟩, e⟩ := e
    rw [Vesting.validateSchedule_ok] at hn
    obtain ⟨i1, i2⟩ := ih (Vesting.saveVesting_stInv hu hn h2) e
    have hc : u1.maxComplexity = u.maxComplexity := by
      obtain ⟨i, _, _, rfl⟩ := Vesting.saveVesting_inv h2; rfl
    have ha : amountOf (b, cv) = n := amountOf_eq (p := (b, cv)) hn
    refine ⟨fun q hq => ?_, by simp [i2, ha]; omega⟩
    rcases List.mem_cons.mp hq with rfl | hq
    · rw [ha]; exact ⟨hn, by rw [← Props.size_points]; simp only; omega⟩
    · rw [← hc]; exact i1 q hq

theorem checkDup_nodup {seen : List Addr} {l : List (Addr × Curve)} (hs : seen.Nodup) (e : Vesting.checkDup seen l = .ok ()) :
    (seen ++ l.map Prod.fst).Nodup := by
  induction l generalizing seen with
  | nil => simpa using hs
  | cons p l ih =>
    obtain ⟨b, cv⟩ := p
    simp only [Vesting.checkDup, bind_ok, req_ok] at e
    obtain ⟨_, h1, e⟩ := e
    have := ih (seen := seen ++ [b]) (by
      rw [List.nodup_append]
      exact ⟨hs, by simp, fun x hx y hy => by simp at hy; rintro rfl; exact h1 (hy ▸ hx)⟩) e
    simpa using this

/-- **C114** New schedules are accepted exactly when the admin signs, there is at least one, no
account occurs twice, every curve is one that can be vested along (not constant, valid, falling to
zero) with fewer steps than the limit, and the admin can pay the total of the starting amounts. -/
theorem C114_create (hh : HostOK h acct) (g : Genesis acct w0) (hp : ∀ y ∈ ts, Possible acct y)
    (hV : (run h w0 ts).code V = .vesting) (hv : (run h w0 ts).vest V = some v)
    (_ht : (run h w0 ts).code v.token = .token) {l : List (Addr × Curve)} (hc : Possible acct ⟨c, .vest V (.create l)⟩) :
    Accepts h (run h w0 ts) c (.vest V (.create l)) ↔
      Signs c v.admin ∧ l ≠ [] ∧ (l.map Prod.fst).Nodup ∧
      ∃ amount : Addr × Curve → Nat, (∀ p ∈ l, Vesting.Spec.Vests p.2 (amount p) ∧ (Phoenix.Spec.stepsOf p.2).length < v.maxComplexity) ∧
        CanPay (run h w0 ts) v.token v.admin V ((l.map amount).sum : Nat) := by
  obtain ⟨I, -⟩ := run_inv hh (Phoenix.World.genesis_inv (h := h) g) hp
  generalize run h w0 ts = w at *
  have nV := I.core.contracts V (by rw [hV]; simp)
  have hr := I.core.range nV
  have hi := (I.core.at_ V nV).vest
  rw [vest_iff (by simp) hV]
  simp only [Vesting.step, bind_ok, Vesting.loaded_ok, hv, Option.some.injEq, ok_inj]
  constructor
  · rintro ⟨_, _, rfl, ⟨v', L'⟩, e, -⟩
    unfold Vesting.create at e
    simp only [bind_ok, requireAuth_ok, req_ok, toI128_ok, outside hc] at e
    obtain ⟨_, h1, _, h2, _, h3, ⟨v1, T⟩, h4, _, ⟨h5, rfl⟩, _, h6, L1, h7, -⟩ := e
    obtain ⟨k1, k2⟩ := createLoop_amounts (hi.st v hv) h4
    have := (transfer_iff hr (outside_ne hc h1 nV)).mp ⟨_, h7⟩
    rw [Nat.zero_add] at k2
    subst k2
    exact ⟨h1, h2, by simpa using checkDup_nodup (by simp) h3, amountOf, k1, this.2⟩
  · rintro ⟨h1, h2, h3, amt, h4, h5⟩
    have hm := (hr v.token v.admin).2
    have hb := h5.2.1
    obtain ⟨v', hv'⟩ := Props.createLoop_succeeds (hi.st v hv) l amt 0 h4 (by
      simp only [I128_MAX] at hm; simp only [U128_LIM]; omega)
    rw [Nat.zero_add] at hv'
    obtain ⟨L', hL⟩ := (transfer_iff hr (outside_ne hc h1 nV) (c := c.as V)).mpr ⟨as_auth.mpr (.inl h1), h5⟩
    refine ⟨_, v, rfl, (v', L'), ?_, rfl⟩
    unfold Vesting.create
    simp only [bind_ok, outside hc, requireAuth_ok, req_ok, toI128_ok]
    exact ⟨(), h1, (), h2, (), Props.checkDup_ok (by simpa using h3), _, hv', _, ⟨by omega, rfl⟩, (), by omega, L', hL, rfl⟩

/-- **C114** A claim is accepted exactly when its account signs it, `query_available_to_claim`
answers a positive number at that moment, and the account's balance does not run over: the contract
can always pay. -/
theorem C114_claim (hh : HostOK h acct) (g : Genesis acct w0) (hp : ∀ y ∈ ts, Possible acct y)
    (hV : (run h w0 ts).code V = .vesting) (hv : (run h w0 ts).vest V = some v) {i : Nat}
    (hc : Possible acct ⟨c, .vest V (.claim a i)⟩) :
    Accepts h (run h w0 ts) c (.vest V (.claim a i)) ↔
      Signs c a ∧ ∃ n, Vesting.available c v a i = .ok n ∧ 0 < n ∧ (run h w0 ts).led.bal v.token a + n ≤ I128_MAX := by
  obtain ⟨I, -⟩ := run_inv hh (Phoenix.World.genesis_inv (h := h) g) hp
  generalize run h w0 ts = w at *
  have nV := I.core.contracts V (by rw [hV]; simp)
  have hr := I.core.range nV
  have hi := (I.core.at_ V nV).vest
  rw [vest_iff (by simp) hV]
  simp only [Vesting.step, bind_ok, Vesting.loaded_ok, hv, Option.some.injEq, ok_inj]
  constructor
  · rintro ⟨_, _, rfl, ⟨v', L'⟩, e, -⟩
    unfold Vesting.claim at e
    simp only [bind_ok, requireAuth_ok, req_ok, outside hc] at e
    obtain ⟨_, h1, n, h2, _, h3, _, _, _, _, _, _, _, _, _, _, _, _, L1, h7, -⟩ := e
    have := (transfer_iff hr (Ne.symm (outside_ne hc h1 nV))).mp ⟨_, h7⟩
    exact ⟨h1, n, h2, h3, this.2.2.2⟩
  · rintro ⟨h1, n, h2, h3, h4⟩
    obtain ⟨x, m, k1, k2, k3, k4, rfl⟩ := Vesting.available_ok.mp h2
    have hb := hi.backed v hv {(a, i)}
    simp only [Finset.sum_singleton, Vesting.out, k1] at hb
    obtain ⟨L', hL⟩ := (transfer_iff hr (Ne.symm (outside_ne hc h1 nV)) (c := c.as V) (t := v.token) (x := (x.balance : Int) - m)).mpr
      ⟨as_auth_self c V, by omega, by omega, h4⟩
    refine ⟨_, v, rfl, (Vesting.putInfo v a i { x with balance := m }, L'), ?_, rfl⟩
    unfold Vesting.claim
    simp only [bind_ok, outside hc, requireAuth_ok, req_ok, Vesting.getVesting_ok, subU_ok, toU128_ok]
    exact ⟨(), h1, _, h2, (), h3, x, k1, m, k2, _, ⟨k3, rfl⟩, x.balance - m, by omega, (), by omega, m, ⟨by omega, by omega⟩,
      L', hL, rfl⟩

/-- **C114** A burn through the contract is accepted exactly when the account signs it and has the
positive amount. -/
theorem C114_burn (hh : HostOK h acct) (g : Genesis acct w0) (hp : ∀ y ∈ ts, Possible acct y)
    (hV : (run h w0 ts).code V = .vesting) (hv : (run h w0 ts).vest V = some v) {n : Nat} (hn : n < U128_LIM)
    (hc : Possible acct ⟨c, .vest V (.burn a n)⟩) :
    Accepts h (run h w0 ts) c (.vest V (.burn a n)) ↔ Signs c a ∧ 0 < n ∧ (n : Int) ≤ (run h w0 ts).led.bal v.token a := by
  obtain ⟨I, -⟩ := run_inv hh (Phoenix.World.genesis_inv (h := h) g) hp
  generalize run h w0 ts = w at *
  have nV := I.core.contracts V (by rw [hV]; simp)
  have hr := I.core.range nV
  have hm := (hr v.token a).2
  rw [vest_iff (by simp) hV]
  simp only [Vesting.step, bind_ok, Vesting.loaded_ok, hv, Option.some.injEq, ok_inj, Vesting.burn, requireAuth_ok, req_ok,
    outside hc]
  constructor
  · rintro ⟨_, _, rfl, L', ⟨_, h1, _, h2, e⟩, -⟩
    obtain ⟨-, k1, k2⟩ := (burn_iff hr).mp ⟨_, e⟩
    unfold Vesting.castI128 at k1 k2
    simp only [U128_LIM] at *
    split at k2 <;> simp_all <;> omega
  · rintro ⟨h1, h2, h3⟩
    have : Vesting.castI128 n = n := by unfold Vesting.castI128; rw [if_pos (by omega)]
    obtain ⟨L', e⟩ := (burn_iff hr (c := c.as V) (t := v.token) (a := a) (x := (n : Int))).mpr ⟨as_auth.mpr (.inl h1), by omega, h3⟩
    exact ⟨_, v, rfl, L', ⟨(), h1, (), by omega, by rw [this]; exact e⟩, rfl⟩

/-- **C114** Minting through the contract is accepted exactly when the current minter signs it, the
positive amount is within their capacity, the token's admin is the contract (or signs too), and the
contract's balance does not run over. -/
theorem C114_mint (hh : HostOK h acct) (g : Genesis acct w0) (hp : ∀ y ∈ ts, Possible acct y)
    (hV : (run h w0 ts).code V = .vesting) (hv : (run h w0 ts).vest V = some v)
    (ht : (run h w0 ts).code v.token = .token) {x : Int} (hc : Possible acct ⟨c, .vest V (.mint a x)⟩) :
    Accepts h (run h w0 ts) c (.vest V (.mint a x)) ↔
      Signs c a ∧ 0 < x ∧ (∃ m, v.minter = some m ∧ m.address = a ∧ x ≤ m.capacity) ∧
      (((run h w0 ts).led v.token).admin = V ∨ Signs c ((run h w0 ts).led v.token).admin) ∧
      (run h w0 ts).led.bal v.token V + x ≤ I128_MAX := by
  obtain ⟨I, -⟩ := run_inv hh (Phoenix.World.genesis_inv (h := h) g) hp
  generalize run h w0 ts = w at *
  have nV := I.core.contracts V (by rw [hV]; simp)
  have hr := I.core.range nV
  simp only [Accepts, step, bind_ok, expect_ok, Vesting.step, Vesting.loaded_ok, hv, Option.some.injEq, ok_inj, Vesting.mint,
    requireAuth_ok, req_ok, outside hc, Vesting.needMinter_ok, toU128_ok, subU_ok]
  constructor
  · rintro ⟨_, _, _, _, rfl, _, _, _, ⟨_, rfl, _, ⟨_, h1, _, h2, m, h3, _, h4, n, h5, _, ⟨h6, -⟩, L, e, -⟩, -⟩, -⟩
    obtain ⟨k1, k2, k3⟩ := (mint_iff hr).mp ⟨_, e⟩
    refine ⟨h1, h2, ⟨m, h3, h4.symm, by omega⟩, ?_, k3⟩
    rcases as_auth.mp k1 with k | k
    · exact .inr k
    · exact .inl k
  · rintro ⟨h1, h2, ⟨m, h3, h4, h5⟩, h6, h7⟩
    obtain ⟨L, e⟩ := (mint_iff hr (c := c.as V)).mpr ⟨as_auth.mpr (h6.elim .inr .inl), h2.le, h7⟩
    exact ⟨_, (), hV, v, rfl, (), ht, _, ⟨v, rfl, _, ⟨(), h1, (), h2, m, h3, (), h4.symm, x.toNat, by omega, _, ⟨by omega, rfl⟩,
      L, e, rfl⟩, rfl⟩, rfl⟩

/-- **C114** The minter is replaced exactly in calls signed by the current minter, or by the admin
while there is none. -/
theorem C114_update_minter (hV : (run h w0 ts).code V = .vesting) (hv : (run h w0 ts).vest V = some v) {n : Addr}
    (hc : Possible acct ⟨c, .vest V (.updateMinter a n)⟩) :
    Accepts h (run h w0 ts) c (.vest V (.updateMinter a n)) ↔
      Signs c a ∧ ((∃ m, v.minter = some m ∧ m.address = a) ∨ v.minter = none ∧ v.admin = a) := by
  rw [vest_iff (by simp) hV]
  simp only [Vesting.step, bind_ok, Vesting.loaded_ok, hv, Option.some.injEq, ok_inj, Vesting.updateMinter, requireAuth_ok, req_ok,
    outside hc]
  constructor
  · rintro ⟨_, _, rfl, _, ⟨_, h1, _, h2, -⟩, -⟩
    refine ⟨h1, ?_⟩
    cases e : v.minter with
    | none => simp only [Vesting.minterOwner, e] at h2; exact .inr ⟨rfl, h2.symm⟩
    | some m => simp only [Vesting.minterOwner, e] at h2; exact .inl ⟨m, rfl, h2.symm⟩
  · rintro ⟨h1, h2⟩
    refine ⟨_, v, rfl, _, ⟨(), h1, (), ?_, rfl⟩, rfl⟩
    rcases h2 with ⟨m, e, rfl⟩ | ⟨e, rfl⟩ <;> simp [Vesting.minterOwner, e]

/-- **C114** The minter's capacity is set exactly in calls signed by the admin, while there is a
minter. -/
theorem C114_update_capacity (hV : (run h w0 ts).code V = .vesting) (hv : (run h w0 ts).vest V = some v) {n : Nat}
    (hc : Possible acct ⟨c, .vest V (.updateCapacity a n)⟩) :
    Accepts h (run h w0 ts) c (.vest V (.updateCapacity a n)) ↔ Signs c a ∧ a = v.admin ∧ v.minter ≠ none := by
  rw [vest_iff (by simp) hV]
  simp only [Vesting.step, bind_ok, Vesting.loaded_ok, hv, Option.some.injEq, ok_inj, Vesting.updateCapacity, requireAuth_ok, req_ok,
    outside hc, Vesting.needMinter_ok]
  constructor
  · rintro ⟨_, _, rfl, _, ⟨_, h1, _, h2, m, h3, -⟩, -⟩
    exact ⟨h1, h2, by simp [h3]⟩
  · rintro ⟨h1, h2, h3⟩
    obtain ⟨m, hm⟩ := Option.ne_none_iff_exists'.mp h3
    exact ⟨_, v, rfl, _, ⟨(), h1, (), h2, m, hm, rfl⟩, rfl⟩

/-! A history in which all these calls occur -/
section
open Phoenix.World.Example

/-- 120 vesting linearly from second 0 to second 20 -/
def exLine : Curve := .sl 0 120 20 0

/-- the contract at 70 is initialised for token 20, account 1 sets up a schedule for account 2 -/
def exVesting : List Tx :=
  [ ⟨by' 3, .vest 70 (.init 1 20 5 (some ⟨9, 100⟩))⟩,
    ⟨by' 1, .vest 70 (.create [(2, exLine)])⟩ ]

theorem exVesting_possible : ∀ y ∈ exVesting, Possible Example.acct y := by
  intro y hy
  simp only [exVesting, List.mem_cons, List.not_mem_nil, or_false] at hy
  rcases hy with rfl | rfl <;> exact possible_by (by decide)

example : (run host start exVesting).code 70 = .vesting ∧
    ((run host start exVesting).vest 70).map (fun v => (v.admin, v.token, v.minter)) = some (1, 20, some ⟨9, 100⟩) ∧
    (run host start exVesting).code 20 = .token ∧ ((run host start exVesting).led 20).admin = 9 ∧
    ((run host start exVesting).vest 70).map (fun v => Vesting.available (by' 2) v 2 0) = some (.ok 60) := by decide +kernel

example : Vesting.Spec.Vests exLine 120 := Vesting.validateSchedule_ok.mp (by decide +kernel)

/-- accepted and refused: claims, schedules, burns, mints, a new minter, a new capacity -/
example : (step host (run host start exVesting) (by' 2) (.vest 70 (.claim 2 0))).toOption.isSome = true ∧
    (step host (run host start exVesting) (by' 2) (.vest 70 (.claim 2 1))).toOption.isSome = false ∧
    (step host (run host start exVesting) (by' 1) (.vest 70 (.create [(2, exLine), (3, exLine)]))).toOption.isSome = true ∧
    (step host (run host start exVesting) (by' 1) (.vest 70 (.create [(2, exLine), (2, exLine)]))).toOption.isSome = false ∧
    (step host (run host start exVesting) (by' 2) (.vest 70 (.burn 2 5000000))).toOption.isSome = true ∧
    (step host (run host start exVesting) (by' 2) (.vest 70 (.burn 2 5000001))).toOption.isSome = false := by decide +kernel
example : (step host (run host start exVesting) (by' 9) (.vest 70 (.mint 9 100))).toOption.isSome = true ∧
    (step host (run host start exVesting) (by' 9) (.vest 70 (.mint 9 101))).toOption.isSome = false ∧
    (step host (run host start exVesting) (by' 9) (.vest 70 (.updateMinter 9 4))).toOption.isSome = true ∧
    (step host (run host start exVesting) (by' 1) (.vest 70 (.updateMinter 1 4))).toOption.isSome = false ∧
    (step host (run host start exVesting) (by' 1) (.vest 70 (.updateCapacity 1 4))).toOption.isSome = true := by decide +kernel
end

end Phoenix.Props.World
