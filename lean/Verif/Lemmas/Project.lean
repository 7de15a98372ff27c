import Verif.Spec.Project
import Verif.Lemmas.Graft
import Verif.Lemmas.WorldSys
/-! A history of the whole protocol as a history of one contract and the tokens (helpers only). -/
namespace Phoenix.World
open Phoenix Phoenix.World.Spec
open Phoenix.Graft (graft)
open Phoenix.Moves (By)

/-- a token call or a call of the contract looked at -/
inductive Act where
  | token (c : Ctx) (tok : Addr) (op : TokenOp)
  | xyk (c : Ctx) (k : Pool.Call)
  | stable (c : Ctx) (k : Stable.Call)
  | stake (c : Ctx) (k : Stake.Call)
  | vest (c : Ctx) (k : Vesting.Call)
  | rew (c : Ctx) (k : Rewards.Call)

/-- the states at one address and all tokens -/
structure Loc where
  xyk : Option Pool.State
  stable : Option Stable.State
  stake : Stake.State
  vest : Option Vesting.State
  rew : Rewards.State
  led : Ledger

def here (w : World) (A : Addr) (L : Ledger) : Loc := ⟨w.xyk A, w.stable A, w.stake A, w.vest A, w.rew A, L⟩

namespace Act

def ctx : Act → Ctx
  | token c _ _ => c
  | xyk c _ => c
  | stable c _ => c
  | stake c _ => c
  | vest c _ => c
  | rew c _ => c

def kind : Act → Code
  | token _ _ _ => .none
  | xyk _ _ => .xyk
  | stable _ _ => .stable
  | stake _ _ => .stake
  | vest _ _ => .vesting
  | rew _ _ => .rewards

def step (A : Addr) (l : Loc) : Act → Res Loc
  | token c t op => do
    let L ← l.led.call c t op
    .ok { l with led := L }
  | xyk c k => do
    let s ← Pool.step A ⟨l.xyk, l.led⟩ (.pool c k)
    .ok { l with xyk := s.pool, led := s.led }
  | stable c k => do
    let s ← Stable.step A ⟨l.stable, l.led⟩ (.pool c k)
    .ok { l with stable := s.pool, led := s.led }
  | stake c k => do
    let s ← Stake.step A ⟨l.stake, l.led⟩ (.stake c k)
    .ok { l with stake := s.st, led := s.led }
  | vest c k => do
    let s ← Vesting.step A ⟨l.vest, l.led⟩ (.vest c k)
    .ok { l with vest := s.vest, led := s.led }
  | rew c k => do
    let s ← Rewards.step A ⟨l.rew, l.led⟩ (.rewards c k)
    .ok { l with rew := s.st, led := s.led }

/-- nothing is read of tokens not in `live` but balances -/
def Calm (live : Addr → Prop) (l : Loc) : Act → Prop
  | token _ t op => Plain live t op
  | xyk _ k => (∀ p, l.xyk = some p → live p.cfg.shareToken) ∧ ∀ i, k = .init i → live i.shareToken
  | stable _ k => (∀ p, l.stable = some p → live p.cfg.shareToken ∧ live p.cfg.tokenA ∧ live p.cfg.tokenB) ∧
      ∀ i, k = .init i → live i.shareToken ∧ live i.tokenA ∧ live i.tokenB
  | stake _ _ => True
  | vest _ k => (∃ a x, k = .mint a x) → ∀ v, l.vest = some v → live v.token
  | rew _ _ => True

/-- a share token is a third token -/
def Third : Act → Prop
  | xyk _ (.init i) => i.shareToken ≠ i.tokenA ∧ i.shareToken ≠ i.tokenB
  | stable _ (.init i) => i.shareToken ≠ i.tokenA ∧ i.shareToken ≠ i.tokenB
  | _ => True

end Act

/-- a sequence of successful calls at time `n`, by others than the contract at `A` of kind `kd` -/
inductive Path (A : Addr) (n : Nat) (kd : Code) (live : Addr → Prop) : Loc → Loc → List Act → Prop where
  | nil (l : Loc) : Path A n kd live l l []
  | cons {l l1 l2 : Loc} {a : Act} {us : List Act} (h : a.step A l = .ok l1) (hn : a.ctx.now = n)
      (ha : a.ctx.auth A = false) (hk : a.kind = .none ∨ a.kind = kd) (hc : a.Calm live l) (ht : a.Third)
      (t : Path A n kd live l1 l2 us) : Path A n kd live l l2 (a :: us)

def Loc.graft (M : Addr → Option Token) (l : Loc) : Loc := { l with led := Graft.graft M l.led }

namespace Path
variable {A : Addr} {n : Nat} {kd : Code} {live : Addr → Prop} {l l1 l2 : Loc} {us vs : List Act}

theorem trans (h1 : Path A n kd live l l1 us) (h2 : Path A n kd live l1 l2 vs) : Path A n kd live l l2 (us ++ vs) := by
  induction h1 with
  | nil => exact h2
  | cons h hn ha hk hc ht _ ih => exact .cons h hn ha hk hc ht (ih h2)

theorem one {a : Act} (h : a.step A l = .ok l1) (hn : a.ctx.now = n) (ha : a.ctx.auth A = false)
    (hk : a.kind = .none ∨ a.kind = kd) (hc : a.Calm live l) (ht : a.Third) : Path A n kd live l l1 [a] :=
  .cons h hn ha hk hc ht (.nil _)

theorem graft_step {M : Addr → Option Token} (hM : ∀ t, live t → M t = none) {a : Act} (h : a.step A l = .ok l1)
    (hc : a.Calm live l) : a.step A (l.graft M) = .ok (l1.graft M) := by
  cases a with
  | token c t op =>
    simp only [Act.step, bind_ok, ok_inj] at h
    obtain ⟨L, h, rfl⟩ := h
    have : (graft M l.led).call c t op = .ok (graft M L) := by
      rcases hc with hl | ⟨s, d, x, rfl⟩ | ⟨s, x, rfl⟩
      · rw [Graft.call_graft _ (hM t hl), h]; rfl
      · have := Graft.transfer_graft (M := M) l.led c t s d x
        unfold Ledger.transfer at this
        rw [this, h]; rfl
      · have := Graft.burn_graft (M := M) l.led c t s x
        unfold Ledger.burn at this
        rw [this, h]; rfl
    simp only [Act.step, bind_ok, ok_inj]
    exact ⟨_, this, rfl⟩
  | xyk c k =>
    simp only [Act.step, bind_ok, ok_inj] at h
    obtain ⟨s, h, rfl⟩ := h
    have := Graft.pool_step (M := M) A ⟨l.xyk, l.led⟩ c k (fun p hp => hM _ (hc.1 p hp)) (fun i hi => hM _ (hc.2 i hi))
    rw [h] at this
    simp only [Act.step, bind_ok, ok_inj]
    exact ⟨_, this, rfl⟩
  | stable c k =>
    simp only [Act.step, bind_ok, ok_inj] at h
    obtain ⟨s, h, rfl⟩ := h
    have := Graft.stable_step (M := M) A ⟨l.stable, l.led⟩ c k
      (fun p hp => ⟨hM _ (hc.1 p hp).1, hM _ (hc.1 p hp).2.1, hM _ (hc.1 p hp).2.2⟩)
      (fun i hi => ⟨hM _ (hc.2 i hi).1, hM _ (hc.2 i hi).2.1, hM _ (hc.2 i hi).2.2⟩)
    rw [h] at this
    simp only [Act.step, bind_ok, ok_inj]
    exact ⟨_, this, rfl⟩
  | stake c k =>
    simp only [Act.step, bind_ok, ok_inj] at h
    obtain ⟨s, h, rfl⟩ := h
    have := Graft.stake_step (M := M) A ⟨l.stake, l.led⟩ c k
    rw [h] at this
    simp only [Act.step, bind_ok, ok_inj]
    exact ⟨_, this, rfl⟩
  | vest c k =>
    simp only [Act.step, bind_ok, ok_inj] at h
    obtain ⟨s, h, rfl⟩ := h
    have := Graft.vest_step (M := M) A ⟨l.vest, l.led⟩ c k (fun hm v hv => hM _ (hc hm v hv))
    rw [h] at this
    simp only [Act.step, bind_ok, ok_inj]
    exact ⟨_, this, rfl⟩
  | rew c k =>
    simp only [Act.step, bind_ok, ok_inj] at h
    obtain ⟨s, h, rfl⟩ := h
    have := Graft.rew_step (M := M) A ⟨l.rew, l.led⟩ c k
    rw [h] at this
    simp only [Act.step, bind_ok, ok_inj]
    exact ⟨_, this, rfl⟩

theorem graft {M : Addr → Option Token} (hM : ∀ t, live t → M t = none) (h : Path A n kd live l l1 us) :
    Path A n kd live (l.graft M) (l1.graft M) us := by
  induction h with
  | nil => exact .nil _
  | @cons l l1 l2 a us h hn ha hk hc ht _ ih =>
    refine .cons (graft_step hM h hc) hn ha hk ?_ ht ih
    cases a <;> exact hc

end Path

/-- only token calls -/
def Tokens (us : List Act) : Prop := ∀ a ∈ us, ∃ c t op, a = .token c t op

theorem call_retime (c : Ctx) (n : Nat) (L : Ledger) (t : Addr) (op : TokenOp) : L.call { c with now := n } t op = L.call c t op := by
  cases op <;> rfl

/-- what others do with tokens -/
theorem path_moves {ok live : Addr → Prop} {A : Addr} {n : Nat} {kd : Code} {l : Loc} {L L' : Ledger} (m : Moves ok live L L')
    (hA : ¬ ok A) : ∃ us, Path A n kd live { l with led := L } { l with led := L' } us ∧ Tokens us := by
  induction m with
  | refl L => exact ⟨[], .nil _, by simp [Tokens]⟩
  | @step L L1 L2 c tok op h ha hp _ ih =>
    obtain ⟨us, p, q⟩ := ih
    have hf : c.auth A = false := by by_contra k; exact hA (ha A (by simpa using k))
    refine ⟨.token { c with now := n } tok op :: us, .cons (l1 := { l with led := L1 }) ?_ rfl ?_ (.inl rfl) hp trivial p, ?_⟩
    · simp only [Act.step, bind_ok, ok_inj]
      exact ⟨L1, by rw [call_retime]; exact h, rfl⟩
    · exact hf
    · intro a ha
      rcases List.mem_cons.mp ha with rfl | ha
      · exact ⟨_, _, _, rfl⟩
      · exact q a ha

/-! The calls of the contract among the acts -/

def Act.stake? : Act → Option (Ctx × Stake.Call)
  | .stake c k => some (c, k)
  | _ => none
def Act.vest? : Act → Option (Ctx × Vesting.Call)
  | .vest c k => some (c, k)
  | _ => none
def Act.rew? : Act → Option (Ctx × Rewards.Call)
  | .rew c k => some (c, k)
  | _ => none

/-- own calls of the contract in the acts of one call of the protocol -/
structure Own (h : Host) (A : Addr) (c : Ctx) (k : Call) (us : List Act) : Prop where
  stake : us.filterMap Act.stake? = (stakeCall h A k).map (fun x => (c, x))
  vest : us.filterMap Act.vest? = (vestCall A k).map (fun x => (c, x))
  rew : us.filterMap Act.rew? = (rewCall A k).map (fun x => (c, x))

theorem Tokens.none {κ : Type} {us : List Act} (h : Tokens us) {f : Act → Option κ} (hf : ∀ c t op, f (.token c t op) = none) :
    us.filterMap f = [] := by
  rw [List.filterMap_eq_nil_iff]
  intro a ha
  obtain ⟨c, t, op, rfl⟩ := h a ha
  exact hf c t op

theorem Tokens.own {h : Host} {A : Addr} {c : Ctx} {k : Call} {us : List Act} (q : Tokens us) (h1 : stakeCall h A k = [])
    (h2 : vestCall A k = []) (h3 : rewCall A k = []) : Own h A c k us :=
  ⟨by rw [q.none fun _ _ _ => rfl, h1]; rfl, by rw [q.none fun _ _ _ => rfl, h2]; rfl,
    by rw [q.none fun _ _ _ => rfl, h3]; rfl⟩

/-- the tokens before a call, with the token that it deploys -/
def Pre (w w' : World) (L : Ledger) : Prop :=
  L = w.led ∨ ∃ s t, w.code s = .none ∧ w'.code s ≠ .none ∧ (∀ a, t.bal a = 0) ∧ (∀ a b, (t.allow a b).amount = 0) ∧
    L = upd w.led s t

/-- the contracts with a model of their own -/
def Modelled (kd : Code) : Prop := kd = .xyk ∨ kd = .stable ∨ kd = .stake ∨ kd = .vesting ∨ kd = .rewards

/-- the code at `A` is or will be `kd` -/
def FitsK (w : World) (A : Addr) (kd : Code) : Prop := w.code A = .none ∨ w.code A = kd

theorem FitsK.eq {w : World} {A : Addr} {kd k : Code} (f : FitsK w A kd) (h : w.code A = k) (hk : k ≠ .none) : k = kd := by
  rcases f with e | e
  · rw [h] at e; exact absurd e hk
  · rw [← h, e]

abbrev Live (w : World) : Addr → Prop := fun t => w.code t ≠ .none

variable {h : Host} {acct : Accounts} {w w' : World} {c : Ctx} {A : Addr} {kd : Code}

theorem signed_false (hc : Signed acct c) (nA : ¬ acct A) : c.signed A = false := by
  cases e : c.signed A with
  | false => rfl
  | true => exact absurd (hc A e) nA

theorem auth_false (hc : Signed acct c) (nA : ¬ acct A) (hi : c.invoker ≠ some A) : c.auth A = false := by
  unfold Ctx.auth
  rw [signed_false hc nA]; simpa using hi

theorem not_by (hc : Signed acct c) (nA : ¬ acct A) {P : Addr} (hP : A ≠ P) : ¬ By c P A := by
  rintro (k | k)
  · exact nA (hc A k)
  · exact hP k

/-- a call of the constant product pool at `P` -/
theorem xyk_path {n : Nat} (I : Inv h acct w) (hc : Signed acct c) (nA : ¬ acct A) (hi : c.invoker ≠ some A) (hn : c.now = n)
    (f : FitsK w A kd) {live : Addr → Prop} (hl : ∀ t, w.code t ≠ .none → live t) {P : Addr} {k : Pool.Call} {s : Pool.Sys}
    (hP : w.code P = .xyk) (hk : ∀ i, k ≠ .init i)
    (e : Pool.step P ⟨w.xyk P, w.led⟩ (.pool c k) = .ok s) :
    ∃ us, Path A n kd live (here w A w.led) (here { w with xyk := upd w.xyk P s.pool, led := s.led } A s.led) us ∧
      us.filterMap Act.stake? = [] ∧ us.filterMap Act.vest? = [] ∧ us.filterMap Act.rew? = [] := by
  have hlive : ∀ p, w.xyk P = some p → live p.cfg.shareToken := fun p hp => hl _ (by rw [(I.refs.xyk P p hp).2.1]; simp)
  by_cases eA : A = P
  · subst eA
    refine ⟨[.xyk c k], .one ?_ hn (auth_false hc nA hi) (.inr (f.eq hP (by simp [Act.kind]))) ⟨hlive, fun i hk' => absurd hk' (hk i)⟩ ?_, rfl, rfl, rfl⟩
    · simp only [Act.step, here, bind_ok, ok_inj]
      exact ⟨s, e, by simp only [upd_same]⟩
    · cases k <;> first | trivial | exact absurd rfl (hk _)
  · obtain ⟨us, p, q⟩ := path_moves (l := here w A w.led) (n := n) (kd := kd) (live := live)
      (Pool.step_moves e hk hlive) (not_by hc nA eA)
    refine ⟨us, ?_, q.none fun _ _ _ => rfl, q.none fun _ _ _ => rfl, q.none fun _ _ _ => rfl⟩
    have e2 : here { w with xyk := upd w.xyk P s.pool, led := s.led } A s.led = { here w A w.led with led := s.led } := by
      simp only [here, upd_ne _ _ eA]
    rw [e2]; exact p

theorem stable_path {n : Nat} (I : Inv h acct w) (hc : Signed acct c) (nA : ¬ acct A) (hi : c.invoker ≠ some A) (hn : c.now = n)
    (f : FitsK w A kd) {live : Addr → Prop} (hl : ∀ t, w.code t ≠ .none → live t) {P : Addr} {k : Stable.Call} {s : Stable.Sys}
    (hP : w.code P = .stable) (hk : ∀ i, k ≠ .init i)
    (e : Stable.step P ⟨w.stable P, w.led⟩ (.pool c k) = .ok s) :
    ∃ us, Path A n kd live (here w A w.led) (here { w with stable := upd w.stable P s.pool, led := s.led } A s.led) us ∧
      us.filterMap Act.stake? = [] ∧ us.filterMap Act.vest? = [] ∧ us.filterMap Act.rew? = [] := by
  have hlive : ∀ p, w.stable P = some p → live p.cfg.shareToken ∧ live p.cfg.tokenA ∧ live p.cfg.tokenB := fun p hp => by
    obtain ⟨-, k1, -, k2, k3⟩ := I.refs.stable P p hp
    exact ⟨hl _ (by rw [k1]; simp), hl _ (by rw [k2]; simp), hl _ (by rw [k3]; simp)⟩
  by_cases eA : A = P
  · subst eA
    refine ⟨[.stable c k], .one ?_ hn (auth_false hc nA hi) (.inr (f.eq hP (by simp [Act.kind]))) ⟨hlive, fun i hk' => absurd hk' (hk i)⟩ ?_, rfl, rfl, rfl⟩
    · simp only [Act.step, here, bind_ok, ok_inj]
      exact ⟨s, e, by simp only [upd_same]⟩
    · cases k <;> first | trivial | exact absurd rfl (hk _)
  · obtain ⟨us, p, q⟩ := path_moves (l := here w A w.led) (n := n) (kd := kd) (live := live)
      (Stable.step_moves e hk (fun p hp => (hlive p hp).1)) (not_by hc nA eA)
    refine ⟨us, ?_, q.none fun _ _ _ => rfl, q.none fun _ _ _ => rfl, q.none fun _ _ _ => rfl⟩
    have e2 : here { w with stable := upd w.stable P s.pool, led := s.led } A s.led = { here w A w.led with led := s.led } := by
      simp only [here, upd_ne _ _ eA]
    rw [e2]; exact p

theorem poolSwap_path {n : Nat} (I : Inv h acct w) (hc : Signed acct c) (nA : ¬ acct A) (hi : c.invoker ≠ some A) (hn : c.now = n)
    (f : FitsK w A kd) {live : Addr → Prop} (hl : ∀ t, w.code t ≠ .none → live t) {P sender offer : Addr} {x r : Int}
    {mi sp mf : Option Int} {dl : Option Nat} (e : poolSwap w c P sender offer x mi sp dl mf = .ok (w', r)) :
    ∃ us, Path A n kd live (here w A w.led) (here w' A w'.led) us ∧
      us.filterMap Act.stake? = [] ∧ us.filterMap Act.vest? = [] ∧ us.filterMap Act.rew? = [] := by
  unfold poolSwap at e
  split at e
  · rename_i hP
    simp only [bind_ok, ok_inj, Prod.exists, Prod.mk.injEq] at e
    obtain ⟨p, hp, p', L, r', hk, rfl, rfl⟩ := e
    refine xyk_path (k := .swap sender offer x mi sp dl mf) (s := ⟨some p', L⟩) I hc nA hi hn f hl hP (by simp) ?_
    simp only [Pool.step, bind_ok, ok_inj, Prod.exists]
    exact ⟨p, hp, p', L, r', hk, rfl⟩
  · rename_i hP
    simp only [bind_ok, ok_inj, Prod.exists, Prod.mk.injEq] at e
    obtain ⟨p, hp, p', L, r', hk, rfl, rfl⟩ := e
    refine stable_path (k := .swap sender offer x mi sp dl mf) (s := ⟨some p', L⟩) I hc nA hi hn f hl hP (by simp) ?_
    simp only [Stable.step, bind_ok, ok_inj, Prod.exists]
    exact ⟨p, hp, p', L, r', hk, rfl⟩
  · simp at e

theorem hopLoop_path {H F recipient : Addr} {sp mf : Option Int} {dl : Option Nat} {live : Addr → Prop} (hc : Signed acct c)
    (nA : ¬ acct A) (hkd : Modelled kd) : ∀ {ops : List Multihop.Op}
    {w w' : World} {x r : Int}, Inv h acct w → FitsK w A kd → (∀ t, w.code t ≠ .none → live t) → w.code H = .multihop →
    hopLoop w (c.as H) F recipient sp dl mf ops x = .ok (w', r) →
    ∃ us, Path A c.now kd live (here w A w.led) (here w' A w'.led) us ∧
      us.filterMap Act.stake? = [] ∧ us.filterMap Act.vest? = [] ∧ us.filterMap Act.rew? = []
  | [], w, w', x, r, I, f, hl, hH, e => by
    simp only [hopLoop, ok_inj, Prod.mk.injEq] at e
    obtain ⟨rfl, rfl⟩ := e; exact ⟨[], .nil _, rfl, rfl, rfl⟩
  | op :: ops, w, w', x, r, I, f, hl, hH, e => by
    simp only [hopLoop, bind_ok, Prod.exists] at e
    obtain ⟨P, hP, w1, r1, h1, h2⟩ := e
    have hne : (c.as H).invoker ≠ some P := by
      simp only [Ctx.as, ne_eq, Option.some.injEq]
      rintro rfl
      rcases poolSwap_code h1 with k | k <;> rw [hH] at k <;> simp at k
    have hA : (c.as H).invoker ≠ some A := by
      simp only [Ctx.as, ne_eq, Option.some.injEq]
      rintro rfl
      have := f.eq hH (by simp)
      rcases hkd with k | k | k | k | k <;> rw [k] at this <;> simp at this
    obtain ⟨I1, g1⟩ := poolSwap_step I (c := c.as H) hc hne h1
    have ec := (poolSwap_moves h1).2
    obtain ⟨us, p, q1, q2, q3⟩ := poolSwap_path (c := c.as H) I hc nA hA rfl f hl h1
    obtain ⟨vs, p', r1, r2, r3⟩ := hopLoop_path hc nA hkd I1 (by unfold FitsK; rw [ec]; exact f) (by rw [ec]; exact hl)
      (code_keep g1 hH (by simp)) h2
    exact ⟨us ++ vs, p.trans p', by rw [List.filterMap_append, q1, r1]; rfl, by rw [List.filterMap_append, q2, r2]; rfl,
      by rw [List.filterMap_append, q3, r3]; rfl⟩

/-- the initialisation of the stake contract of a new pool -/
def stakeInit (h : Host) (P : Addr) (i : Info) (owner : Addr) : Stake.Call :=
  .init i.admin (h.shareAddr P i.tokenA i.tokenB) i.minBond i.minReward i.manager owner i.maxComplexity

theorem initXyk_path (hh : HostOK h acct) (hc : Signed acct c) (nA : ¬ acct A) (hi : c.invoker ≠ some A)
    (f : FitsK w' A kd) {P owner : Addr} {i : Info} {dec : Nat} {sl mf : Int} (hP : w.code P = .xyk)
    (e : initXyk h w P i owner dec sl mf = .ok w') :
    ∃ L us, Pre w w' L ∧ Path A c.now kd (Live w') (here w A L) (here w' A w'.led) us ∧
      us.filterMap Act.stake? = (if h.stakeAddr P = A then [stakeInit h P i owner] else []).map (fun x => (c, x)) ∧
      us.filterMap Act.vest? = [] ∧ us.filterMap Act.rew? = [] := by
  unfold initXyk at e
  simp only [bind_ok, deploy_ok, ok_inj, Prod.exists] at e
  obtain ⟨p, L, hp, w1, ⟨h1, rfl⟩, w2, ⟨h2, rfl⟩, st, hst, rfl⟩ := e
  have hfr := hh.fresh P i.tokenA i.tokenB
  obtain ⟨j, hp, j1, j2, j3⟩ : ∃ j : Pool.InitArgs, Pool.init P (w.xyk P) w.led j = .ok (p, L) ∧
      j.shareToken = h.shareAddr P i.tokenA i.tokenB ∧ j.tokenA = i.tokenA ∧ j.tokenB = i.tokenB := ⟨_, hp, rfl, rfl, rfl⟩
  simp only at h2 hst
  have hSK : h.stakeAddr P ≠ h.shareAddr P i.tokenA i.tokenB := by
    intro e; rw [e, upd_same] at h2; simp at h2
  rw [upd_ne _ _ hSK] at h2
  have hPK : P ≠ h.stakeAddr P := by intro e; rw [e] at hP; rw [hP] at h2; simp at h2
  have hPS : P ≠ h.shareAddr P i.tokenA i.tokenB := by intro e; rw [← e, hP] at h1; simp at h1
  have hlS : (upd (upd w.code (h.shareAddr P i.tokenA i.tokenB) .token) (h.stakeAddr P) .stake) (h.shareAddr P i.tokenA i.tokenB) = .token := by
    rw [upd_ne _ _ hSK.symm, upd_same]
  by_cases eA : A = P
  · subst eA
    have hcA : (upd (upd w.code (h.shareAddr A i.tokenA i.tokenB) .token) (h.stakeAddr A) .stake) A = .xyk := by
      rw [upd_ne _ _ hPK, upd_ne _ _ hPS]; exact hP
    have hpn : w.xyk A = none := by
      have hp := hp
      unfold Pool.init at hp
      simp only [bind_ok, req_ok] at hp
      obtain ⟨_, hx, -⟩ := hp
      simpa using hx
    refine ⟨w.led, [.xyk c (.init j)], .inl rfl, .one ?_ rfl (auth_false hc nA hi) (.inr (f.eq hcA (by simp [Act.kind]))) ⟨?_, ?_⟩ ?_, ?_, rfl, rfl⟩
    rotate_left
    · intro q hq
      simp only [here, hpn] at hq; simp at hq
    rotate_right
    · simp only [Act.step, Pool.step, here, bind_ok, ok_inj, Prod.exists]
      exact ⟨_, ⟨p, L, hp, rfl⟩, by simp only [upd_same, upd_ne _ _ hPK]⟩
    · intro j' hj; cases hj
      show upd _ _ _ _ ≠ _
      rw [j1, hlS]; simp
    · simp only [Act.Third, j1, j2, j3]; exact hfr
    · rw [if_neg (Ne.symm hPK)]; rfl
  · have hL : ∃ t : Token, L = upd w.led (h.shareAddr P i.tokenA i.tokenB) t ∧ (∀ a, t.bal a = 0) ∧ ∀ a b, (t.allow a b).amount = 0 := by
      unfold Pool.init at hp
      simp only [bind_ok, ok_inj, Token.construct, Prod.mk.injEq] at hp
      obtain ⟨_, -, _, -, _, -, _, -, _, -, _, -, _, -, _, -, _, -, t, ⟨_, -, rfl⟩, _, -, _, -, _, -, -, rfl⟩ := hp
      exact ⟨_, by rw [j1], fun _ => rfl, fun _ _ => rfl⟩
    obtain ⟨t, eL, t1, t2⟩ := hL
    have hpre : ∀ W : World, W.code (h.shareAddr P i.tokenA i.tokenB) = .token → Pre w W L :=
      fun W hW => .inr ⟨_, t, h1, by rw [hW]; simp, t1, t2, eL⟩
    by_cases eK : h.stakeAddr P = A
    · subst eK
      refine ⟨L, [.stake c (stakeInit h P i owner)], hpre _ hlS, .one ?_ rfl (auth_false hc nA hi) (.inr (f.eq (k := .stake) ?_ (by simp))) trivial trivial, ?_, rfl, rfl⟩
      · simp only [Act.step, stakeInit, Stake.step, here, bind_ok, ok_inj]
        exact ⟨_, ⟨st, hst, rfl⟩, by simp only [upd_same, upd_ne _ _ eA]⟩
      · simp only [upd_same]
      · simp [Act.stake?]
    · refine ⟨L, [], hpre _ hlS, ?_, by rw [if_neg eK]; rfl, rfl, rfl⟩
      simp only [here, upd_ne _ _ eA, upd_ne _ _ (Ne.symm eK)]
      exact .nil _

theorem initStable_path {c' : Ctx} (hcn : c'.now = c.now) (hh : HostOK h acct) (hc : Signed acct c) (nA : ¬ acct A) (hi : c.invoker ≠ some A)
    (f : FitsK w' A kd) {P owner : Addr} {i : Info} {amp : Nat} {mf : Int} (hP : w.code P = .stable)
    (e : initStable h w c' P i owner amp mf = .ok w') :
    ∃ L us, Pre w w' L ∧ Path A c.now kd (Live w') (here w A L) (here w' A w'.led) us ∧
      us.filterMap Act.stake? = (if h.stakeAddr P = A then [stakeInit h P i owner] else []).map (fun x => (c, x)) ∧
      us.filterMap Act.vest? = [] ∧ us.filterMap Act.rew? = [] := by
  unfold initStable at e
  simp only [bind_ok, deploy_ok, ok_inj, Prod.exists, expect_ok] at e
  obtain ⟨_, hA, _, hB, p, L, hp, w1, ⟨h1, rfl⟩, w2, ⟨h2, rfl⟩, st, hst, rfl⟩ := e
  have hfr := hh.fresh P i.tokenA i.tokenB
  obtain ⟨j, hp, j1, j2, j3⟩ : ∃ j : Stable.InitArgs, Stable.init P c' (w.stable P) w.led j = .ok (p, L) ∧
      j.shareToken = h.shareAddr P i.tokenA i.tokenB ∧ j.tokenA = i.tokenA ∧ j.tokenB = i.tokenB := ⟨_, hp, rfl, rfl, rfl⟩
  simp only at h2 hst
  have hSK : h.stakeAddr P ≠ h.shareAddr P i.tokenA i.tokenB := by
    intro e; rw [e, upd_same] at h2; simp at h2
  rw [upd_ne _ _ hSK] at h2
  have hPK : P ≠ h.stakeAddr P := by intro e; rw [e] at hP; rw [hP] at h2; simp at h2
  have hPS : P ≠ h.shareAddr P i.tokenA i.tokenB := by intro e; rw [← e, hP] at h1; simp at h1
  have hlS : (upd (upd w.code (h.shareAddr P i.tokenA i.tokenB) .token) (h.stakeAddr P) .stake) (h.shareAddr P i.tokenA i.tokenB) = .token := by
    rw [upd_ne _ _ hSK.symm, upd_same]
  have hlt : ∀ t, w.code t = .token → (upd (upd w.code (h.shareAddr P i.tokenA i.tokenB) .token) (h.stakeAddr P) .stake) t = .token := by
    intro t ht
    rw [upd_ne _ _ (by rintro rfl; rw [ht] at h2; simp at h2), upd_ne _ _ (by rintro rfl; rw [ht] at h1; simp at h1), ht]
  by_cases eA : A = P
  · subst eA
    have hcA : (upd (upd w.code (h.shareAddr A i.tokenA i.tokenB) .token) (h.stakeAddr A) .stake) A = .stable := by
      rw [upd_ne _ _ hPK, upd_ne _ _ hPS]; exact hP
    have hpn : w.stable A = none := by
      have hp := hp
      unfold Stable.init at hp
      simp only [bind_ok, req_ok] at hp
      obtain ⟨_, hx, -⟩ := hp
      simpa using hx
    have hp' : ∀ x y, Stable.init A c' x y = Stable.init A c x y := by
      intro x y; funext j; unfold Stable.init; rw [hcn]
    rw [hp'] at hp
    refine ⟨w.led, [.stable c (.init j)], .inl rfl, .one ?_ rfl (auth_false hc nA hi) (.inr (f.eq hcA (by simp [Act.kind]))) ⟨?_, ?_⟩ ?_, ?_, rfl, rfl⟩
    rotate_left
    · intro q hq
      simp only [here, hpn] at hq; simp at hq
    rotate_right
    · simp only [Act.step, Stable.step, here, bind_ok, ok_inj, Prod.exists]
      exact ⟨_, ⟨p, L, hp, rfl⟩, by simp only [upd_same, upd_ne _ _ hPK]⟩
    · intro j' hj; cases hj
      refine ⟨?_, ?_, ?_⟩
      · show upd _ _ _ _ ≠ _
        rw [j1, hlS]; simp
      · show upd _ _ _ _ ≠ _
        rw [j2, hlt _ hA]; simp
      · show upd _ _ _ _ ≠ _
        rw [j3, hlt _ hB]; simp
    · simp only [Act.Third, j1, j2, j3]; exact hfr
    · rw [if_neg (Ne.symm hPK)]; rfl
  · have hL : ∃ t : Token, L = upd w.led (h.shareAddr P i.tokenA i.tokenB) t ∧ (∀ a, t.bal a = 0) ∧ ∀ a b, (t.allow a b).amount = 0 := by
      unfold Stable.init at hp
      simp only [bind_ok, ok_inj, Token.construct, Prod.mk.injEq] at hp
      obtain ⟨_, -, _, -, _, -, _, -, _, -, _, -, _, -, _, -, t, ⟨_, -, rfl⟩, _, -, _, -, _, -, _, -, _, -, -, rfl⟩ := hp
      exact ⟨_, by rw [j1], fun _ => rfl, fun _ _ => rfl⟩
    obtain ⟨t, eL, t1, t2⟩ := hL
    have hpre : ∀ W : World, W.code (h.shareAddr P i.tokenA i.tokenB) = .token → Pre w W L :=
      fun W hW => .inr ⟨_, t, h1, by rw [hW]; simp, t1, t2, eL⟩
    by_cases eK : h.stakeAddr P = A
    · subst eK
      refine ⟨L, [.stake c (stakeInit h P i owner)], hpre _ hlS, .one ?_ rfl (auth_false hc nA hi) (.inr (f.eq (k := .stake) ?_ (by simp))) trivial trivial, ?_, rfl, rfl⟩
      · simp only [Act.step, stakeInit, Stake.step, here, bind_ok, ok_inj]
        exact ⟨_, ⟨st, hst, rfl⟩, by simp only [upd_same, upd_ne _ _ eA]⟩
      · simp only [upd_same]
      · simp [Act.stake?]
    · refine ⟨L, [], hpre _ hlS, ?_, by rw [if_neg eK]; rfl, rfl, rfl⟩
      simp only [here, upd_ne _ _ eA, upd_ne _ _ (Ne.symm eK)]
      exact .nil _

/-- One call of the protocol, seen from the contract at `A`. -/
theorem step_path {k : Call} (hh : HostOK h acct) (I : Inv h acct w) (hc : Signed acct c) (hi : c.invoker = none)
    (nA : ¬ acct A) (hkd : Modelled kd) (e : step h w c k = .ok w') (f : FitsK w' A kd) :
    ∃ L us, Pre w w' L ∧ Path A c.now kd (Live w') (here w A L) (here w' A w'.led) us ∧ Own h A c k us := by
  obtain ⟨I', g⟩ := step_inv hh I hc hi e
  have hinv : c.invoker ≠ some A := by rw [hi]; simp
  have fw : FitsK w A kd := by
    by_cases k : w.code A = .none
    · exact .inl k
    · right; rw [← f.resolve_left (by rw [g.code A k]; exact k), g.code A k]
  have hlive : ∀ t, w.code t ≠ .none → Live w' t := fun t ht => by unfold Live; rw [g.code t ht]; exact ht
  have hno : ∀ B k, w.code B = k → k ≠ .none → ¬ Modelled k → A ≠ B := by
    rintro B k hB hk hm rfl
    exact hm (fw.eq hB hk ▸ hkd)
  -- nothing happens at all
  have idle : w'.led = w.led → here w' A w'.led = here w A w.led → stakeCall h A k = [] → vestCall A k = [] →
      rewCall A k = [] → ∃ L us, Pre w w' L ∧ Path A c.now kd (Live w') (here w A L) (here w' A w'.led) us ∧ Own h A c k us := by
    intro _ e2 k1 k2 k3
    exact ⟨w.led, [], .inl rfl, by rw [e2]; exact .nil _, Tokens.own (by simp [Tokens]) k1 k2 k3⟩
  cases k with
  | token tok op =>
    simp only [step, bind_ok, ok_inj, expect_ok] at e
    obtain ⟨_, h1, L, h2, rfl⟩ := e
    obtain ⟨us, p, q⟩ := path_moves (l := here w A w.led) (n := c.now) (kd := kd) (live := Live { w with led := L }) (ok := acct) (A := A)
      (.one h2 (fun a k => hc a (by simpa [Ctx.auth, hi] using k)) (.inl (hlive tok (by rw [h1]; simp)))) nA
    exact ⟨w.led, us, .inl rfl, p, q.own rfl rfl rfl⟩
  | xykInit P i owner dec sl mf =>
    simp only [step, bind_ok, expect_ok] at e
    obtain ⟨_, h1, h2⟩ := e
    obtain ⟨L, us, a1, a2, a3, a4, a5⟩ := initXyk_path hh hc nA hinv f h1 h2
    exact ⟨L, us, a1, a2, a3, a4, a5⟩
  | xyk P k =>
    cases k with
    | init i => simp [step] at e
    | _ =>
      simp only [step, bind_ok, ok_inj, expect_ok] at e
      obtain ⟨_, h1, s, h2, rfl⟩ := e
      obtain ⟨us, a2, a3, a4, a5⟩ := xyk_path I hc nA hinv rfl fw hlive h1 (by simp) h2
      exact ⟨w.led, us, .inl rfl, a2, a3, a4, a5⟩
  | stableInit P i owner amp mf =>
    simp only [step, bind_ok, expect_ok] at e
    obtain ⟨_, h1, h2⟩ := e
    obtain ⟨L, us, a1, a2, a3, a4, a5⟩ := initStable_path rfl hh hc nA hinv f h1 h2
    exact ⟨L, us, a1, a2, a3, a4, a5⟩
  | stable P k =>
    cases k with
    | init i => simp [step] at e
    | _ =>
      simp only [step, bind_ok, ok_inj, expect_ok] at e
      obtain ⟨_, h1, s, h2, rfl⟩ := e
      obtain ⟨us, a2, a3, a4, a5⟩ := stable_path I hc nA hinv rfl fw hlive h1 (by simp) h2
      exact ⟨w.led, us, .inl rfl, a2, a3, a4, a5⟩
  | stake K k =>
    simp only [step, bind_ok, ok_inj, expect_ok] at e
    obtain ⟨_, h1, s, h2, rfl⟩ := e
    by_cases eA : A = K
    · subst eA
      refine ⟨w.led, [.stake c k], .inl rfl, .one ?_ rfl (auth_false hc nA hinv) (.inr (fw.eq h1 (by simp [Act.kind]))) trivial trivial, ?_⟩
      · simp only [Act.step, here, bind_ok, ok_inj]
        exact ⟨s, h2, by simp only [upd_same]⟩
      · exact ⟨by simp [Act.stake?, stakeCall], rfl, rfl⟩
    · obtain ⟨us, p, q⟩ := path_moves (l := here w A w.led) (n := c.now) (kd := kd)
        (live := Live { w with stake := upd w.stake K s.st, led := s.led }) (Stake.step_moves h2) (not_by hc nA eA)
      refine ⟨w.led, us, .inl rfl, ?_, q.own (by simp [stakeCall, Ne.symm eA]) rfl rfl⟩
      simp only [here, upd_ne _ _ eA]; exact p
  | vest V k =>
    have key : ∃ s, w.code V = .vesting ∧ ((∃ a x, k = .mint a x) → ∀ v, w.vest V = some v → w.code v.token ≠ .none) ∧
        Vesting.step V ⟨w.vest V, w.led⟩ (.vest c k) = .ok s ∧ w' = { w with vest := upd w.vest V s.vest, led := s.led } := by
      cases k with
      | mint a x =>
        simp only [step, bind_ok, ok_inj, expect_ok] at e
        obtain ⟨_, h1, v, hv, _, ht, s, h2, rfl⟩ := e
        refine ⟨s, h1, fun _ v' hv' => ?_, h2, rfl⟩
        rw [vest_loaded hv] at hv'; cases hv'; rw [ht]; simp
      | _ =>
        simp only [step, bind_ok, ok_inj, expect_ok] at e
        obtain ⟨_, h1, s, h2, rfl⟩ := e
        exact ⟨s, h1, fun ⟨_, _, k⟩ => by simp at k, h2, rfl⟩
    obtain ⟨s, h1, hm, h2, rfl⟩ := key
    by_cases eA : A = V
    · subst eA
      refine ⟨w.led, [.vest c k], .inl rfl, .one ?_ rfl (auth_false hc nA hinv) (.inr (fw.eq h1 (by simp [Act.kind])))
        (fun hk v hv => hlive _ (hm hk v hv)) ?_, ?_⟩
      · simp only [Act.step, here, bind_ok, ok_inj]
        exact ⟨s, h2, by simp only [upd_same]⟩
      · trivial
      · exact ⟨rfl, by simp [Act.vest?, vestCall], rfl⟩
    · obtain ⟨us, p, q⟩ := path_moves (l := here w A w.led) (n := c.now) (kd := kd)
        (live := Live { w with vest := upd w.vest V s.vest, led := s.led })
        (Vesting.step_moves h2 (fun hk v hv => hlive _ (hm hk v hv))) (not_by hc nA eA)
      refine ⟨w.led, us, .inl rfl, ?_, q.own rfl (by simp [vestCall, Ne.symm eA]) rfl⟩
      simp only [here, upd_ne _ _ eA]; exact p
  | facInit F admin a b d e' wl dec =>
    simp only [step, facInit, bind_ok, expect_ok, deploy_ok, ok_inj] at e
    obtain ⟨_, h1, _, -, _, -, w1, ⟨-, rfl⟩, m, -, rfl⟩ := e
    exact idle rfl rfl rfl rfl rfl
  | create F sender i k amp sl mf =>
    simp only [step, bind_ok, ok_inj, expect_ok, Prod.exists] at e
    obtain ⟨_, h1, w1, P, h2, rfl⟩ := e
    unfold create at h2
    simp only [bind_ok, req_ok, ok_inj, requireAuth_ok, deploy_ok, Prod.mk.injEq] at h2
    obtain ⟨_, -, _, -, f0, -, _, -, _, -, w1, ⟨hP, rfl⟩, _, -, _, -, _, -, _, -, _, -, _, -, w2, hin, rfl, rfl⟩ := h2
    have hpre : ∀ L, Pre { w with code := upd w.code (h.poolAddr F i.tokenA i.tokenB) k.code } w2 L → Pre w w2 L := by
      rintro L (rfl | ⟨s, t, s1, s2⟩)
      · exact .inl rfl
      · refine .inr ⟨s, t, ?_, s2⟩
        simp only [upd_apply] at s1
        split at s1
        · cases k <;> simp [Kind.code] at s1
        · exact s1
    have hw2 : FitsK w2 A kd := f
    cases k with
    | xyk =>
      obtain ⟨L, us, a1, a2, a3, a4, a5⟩ := initXyk_path hh hc nA hinv hw2 (by simp [Kind.code, upd_same]) hin
      exact ⟨L, us, hpre L a1, a2, a3, a4, a5⟩
    | stable =>
      obtain ⟨L, us, a1, a2, a3, a4, a5⟩ := initStable_path (c := c) rfl hh hc nA hinv hw2 (by simp [Kind.code, upd_same]) hin
      exact ⟨L, us, hpre L a1, a2, a3, a4, a5⟩
  | whitelist F sender add rem =>
    simp only [step, bind_ok, ok_inj, expect_ok] at e
    obtain ⟨_, h1, f, hf, f', -, rfl⟩ := e
    exact idle rfl rfl rfl rfl rfl
  | hashes F a b d =>
    simp only [step, bind_ok, ok_inj, expect_ok] at e
    obtain ⟨_, h1, f, hf, f', -, rfl⟩ := e
    exact idle rfl rfl rfl rfl rfl
  | facUpdate F a =>
    simp only [step, bind_ok, ok_inj, expect_ok] at e
    obtain ⟨_, h1, f, hf, f', -, rfl⟩ := e
    exact idle rfl rfl rfl rfl rfl
  | hopInit H admin F =>
    simp only [step, bind_ok, ok_inj, expect_ok] at e
    obtain ⟨_, h1, m, -, rfl⟩ := e
    exact idle rfl rfl rfl rfl rfl
  | hopSwap H recipient ops sp amount dl mf =>
    simp only [step, hopSwap, bind_ok, ok_inj, expect_ok, Prod.exists] at e
    obtain ⟨_, h1, w1, r, ⟨_, _, _, _, _, _, m, hm, h2⟩, rfl⟩ := e
    obtain ⟨us, a2, a3, a4, a5⟩ := hopLoop_path hc nA hkd I fw hlive h1 h2
    exact ⟨w.led, us, .inl rfl, a2, a3, a4, a5⟩
  | trdInit T admin a b o =>
    simp only [step, bind_ok, ok_inj, expect_ok] at e
    obtain ⟨_, h1, t, -, rfl⟩ := e
    exact idle rfl rfl rfl rfl rfl
  | trade T sender token pool amount sp dl mi mf =>
    simp only [step, trade, bind_ok, ok_inj, expect_ok, Prod.exists] at e
    obtain ⟨_, h1, w1, r, ⟨_, _, t, ht, _, _, _, _, _, _, h2⟩, rfl⟩ := e
    have hA : A ≠ T := hno T _ h1 (by simp) (by simp [Modelled])
    obtain ⟨us, a2, a3, a4, a5⟩ := poolSwap_path (c := c.as T) I hc nA (by simpa [Ctx.as] using Ne.symm hA) rfl fw hlive h2
    exact ⟨w.led, us, .inl rfl, a2, a3, a4, a5⟩
  | trdTransfer T sender recipient amount token =>
    simp only [step, bind_ok, ok_inj, expect_ok, Trader.transfer] at e
    obtain ⟨_, h1, t, ht, L, ⟨_, _, _, _, h2⟩, rfl⟩ := e
    have hA : A ≠ T := hno T _ h1 (by simp) (by simp [Modelled])
    obtain ⟨us, p, q⟩ := path_moves (l := here w A w.led) (n := c.now) (kd := kd) (live := Live { w with led := L })
      (Moves.transfer h2) (not_by hc nA hA)
    exact ⟨w.led, us, .inl rfl, p, q.own rfl rfl rfl⟩
  | rewards R k =>
    simp only [step, bind_ok, ok_inj, expect_ok] at e
    obtain ⟨_, h1, s, h2, rfl⟩ := e
    by_cases eA : A = R
    · subst eA
      refine ⟨w.led, [.rew c k], .inl rfl, .one ?_ rfl (auth_false hc nA hinv) (.inr (fw.eq h1 (by simp [Act.kind]))) trivial trivial, ?_⟩
      · simp only [Act.step, here, bind_ok, ok_inj]
        exact ⟨s, h2, by simp only [upd_same]⟩
      · exact ⟨rfl, rfl, by simp [Act.rew?, rewCall]⟩
    · obtain ⟨us, p, q⟩ := path_moves (l := here w A w.led) (n := c.now) (kd := kd)
        (live := Live { w with rew := upd w.rew R s.st, led := s.led }) (Rewards.step_moves h2) (not_by hc nA eA)
      refine ⟨w.led, us, .inl rfl, ?_, q.own rfl rfl (by simp [rewCall, Ne.symm eA])⟩
      simp only [here, upd_ne _ _ eA]; exact p

end Phoenix.World
