import Verif.Lemmas.Supply
import Verif.Props.World
import Verif.Props.Multihop
/-!
Property theorems about total supplies in the whole protocol: C112 (where every unit of a token
comes from).  The supply of a token is the sum over all addresses, see Verif.Spec.Supply.
-/
namespace Phoenix.Props.World
open Phoenix Phoenix.World Phoenix.World.Spec

variable {h : Host} {acct : Accounts} {w0 : World} {t : Addr}

/-- **C112** A successful call of any contract, in any reachable state, changes the total supply of
a token by exactly what the call issues: the amount of a mint or burn of the token or through the
vesting contract, and the change of the number of shares that a pool reports.  Everything else
conserves supply. -/
theorem C112_call (hh : HostOK h acct) (g : Genesis acct w0) {ts : List Tx} (hp : ∀ x ∈ ts, Possible acct x)
    {c : Ctx} {k : Call} {w' : World} (hf : Fits k) (e : step h (run h w0 ts) c k = .ok w') {n : Int}
    (hs : Supply (run h w0 ts).led t n) : Supply w'.led t (n + issued (run h w0 ts) w' t k) := by
  obtain ⟨I, -⟩ := run_inv hh (Phoenix.World.genesis_inv (h := h) g) hp
  exact Net.supply (step_net hh I hf e) hs

theorem supply_unique {L : Ledger} {n m : Int} (h1 : Supply L t n) (h2 : Supply L t m) : n = m := by
  obtain ⟨S, a1, rfl⟩ := h1
  obtain ⟨T, a2, rfl⟩ := h2
  rw [Finset.sum_subset (Finset.subset_union_left (s₁ := S) (s₂ := T)) (fun a _ ha => a1 a ha),
    Finset.sum_subset (Finset.subset_union_right (s₁ := S) (s₂ := T)) (fun a _ ha => a2 a ha)]

theorem exec_ok {w w' : World} {x : Tx} (e : step h w x.ctx x.call = .ok w') : exec h w x = w' := by
  unfold exec; rw [e]
theorem exec_error {w : World} {x : Tx} {z : Err} (e : step h w x.ctx x.call = .error z) : exec h w x = w := by
  unfold exec; rw [e]

theorem history_aux (hh : HostOK h acct) : ∀ (ts : List Tx) {w : World}, Phoenix.World.Inv h acct w →
    (∀ x ∈ ts, Possible acct x) → (∀ x ∈ ts, Fits x.call) → ∀ {n : Int}, Supply w.led t n →
    Supply (run h w ts).led t (n + issuedBy h t w ts)
  | [], w, I, hp, hf, n, hs => by simpa [issuedBy, run] using hs
  | x :: ts, w, I, hp, hf, n, hs => by
    have hx := hp x List.mem_cons_self
    obtain ⟨I', -⟩ := exec_inv hh I hx
    have hn : Supply (exec h w x).led t (n + (match step h w x.ctx x.call with
        | .ok w' => issued w w' t x.call
        | .error _ => 0)) := by
      cases e : step h w x.ctx x.call with
      | ok w' =>
        rw [exec_ok e]
        exact Net.supply (step_net hh I (hf x List.mem_cons_self) e) hs
      | error z => rw [exec_error e]; simpa using hs
    have := history_aux hh ts I' (fun y hy => hp y (List.mem_cons_of_mem _ hy)) (fun y hy => hf y (List.mem_cons_of_mem _ hy)) hn
    simp only [issuedBy, ← add_assoc]
    exact this

/-- **C112** After any history the total supply of a token is the initial supply and what the
successful calls issued. -/
theorem C112_history (hh : HostOK h acct) (g : Genesis acct w0) {ts : List Tx} (hp : ∀ x ∈ ts, Possible acct x)
    (hf : ∀ x ∈ ts, Fits x.call) {n : Int} (hs : Supply w0.led t n) :
    Supply (run h w0 ts).led t (n + issuedBy h t w0 ts) :=
  history_aux hh ts (Phoenix.World.genesis_inv g) hp hf hs

theorem burntBy_append (us : List Tx) : ∀ (ts : List Tx) (w : World), burntBy h t w (ts ++ us) = burntBy h t w ts + burntBy h t (run h w ts) us
  | [], w => by simp [burntBy, run]
  | x :: ts, w => by
    simp only [List.cons_append, burntBy, burntBy_append us ts]
    rw [← add_assoc]; rfl

theorem burntBy_one (w : World) (x : Tx) : burntBy h t w [x] =
    match step h w x.ctx x.call with
      | .ok _ => burnt w t x.call
      | .error _ => 0 := by
  simp only [burntBy, add_zero]
  split <;> simp_all

theorem burntBy_none (hh : HostOK h acct) (g : Genesis acct w0) (ts : List Tx) (hp : ∀ x ∈ ts, Possible acct x)
    (hf : ∀ x ∈ ts, Fits x.call) (ht : (run h w0 ts).code t = .none) : burntBy h t w0 ts = 0 := by
  induction ts using List.reverseRecOn with
  | nil => rfl
  | append_singleton ts x ih =>
    have hp' : ∀ y ∈ ts, Possible acct y := fun y hy => hp y (by simp [hy])
    obtain ⟨I, -⟩ := run_inv hh (Phoenix.World.genesis_inv (h := h) g) hp'
    have e1 : run h w0 (ts ++ [x]) = exec h (run h w0 ts) x := by simp [run]
    rw [e1] at ht
    obtain ⟨-, gr⟩ := exec_inv hh I (hp x (by simp))
    have ht' : (run h w0 ts).code t = .none := by
      by_contra k
      rw [gr.code t k] at ht; exact k ht
    rw [burntBy_append, ih hp' (fun y hy => hf y (by simp [hy])) ht', burntBy_one, zero_add]
    split
    · rename_i w' e
      exact burnt_none I (hf x (by simp)) e ht'
    · rfl

/-- **C112** In every reachable state, for every pool of either kind: the number of shares that the
pool reports is the total supply of its share token, summed over all holders, and what holders have
destroyed themselves by burning shares instead of withdrawing. -/
theorem C112_shares (hh : HostOK h acct) (g : Genesis acct w0) {ts : List Tx} (hp : ∀ x ∈ ts, Possible acct x)
    (hf : ∀ x ∈ ts, Fits x.call) {P : Addr} {n : Int} (r : Reports (run h w0 ts) P t n) :
    Supply (run h w0 ts).led t (n - burntBy h t w0 ts) := by
  induction ts using List.reverseRecOn generalizing n with
  | nil =>
    rcases r with ⟨p, hp, -⟩ | ⟨p, hp, -⟩
    · rw [show run h w0 [] = w0 from rfl, g.xyk] at hp; simp at hp
    · rw [show run h w0 [] = w0 from rfl, g.stable] at hp; simp at hp
  | append_singleton ts x ih =>
    have hp' : ∀ y ∈ ts, Possible acct y := fun y hy => hp y (by simp [hy])
    have hf' : ∀ y ∈ ts, Fits y.call := fun y hy => hf y (by simp [hy])
    obtain ⟨I, -⟩ := run_inv hh (Phoenix.World.genesis_inv (h := h) g) hp'
    have e1 : run h w0 (ts ++ [x]) = exec h (run h w0 ts) x := by simp [run]
    rw [e1] at r ⊢
    rw [burntBy_append, burntBy_one]
    have hx := hp x (by simp)
    cases e : step h (run h w0 ts) x.ctx x.call with
    | error z =>
      rw [exec_error e] at r ⊢
      simpa using ih hp' hf' r
    | ok w' =>
      rw [exec_ok e] at r ⊢
      have net := step_net (t := t) hh I (hf x (by simp)) e
      rcases step_reports hh I hx.2 hx.1 e r with ⟨m, r', rfl⟩ | ⟨ht, rfl, hz⟩
      · have := Net.supply net (ih hp' hf' r')
        convert this using 1
        ring
      · have h0 : Supply (run h w0 ts).led t 0 := ⟨∅, fun a _ => I.core.blank t ht a, by simp⟩
        have := Net.supply net h0
        rw [burntBy_none hh g ts hp' hf' ht]
        simp only [burnt_none I (hf x (by simp)) e ht]
        simpa [hz] using this

/-- **C112** A token that an account administers cannot be inflated without that account: in any
history in which the account signs nothing, the supply only falls, and by exactly what holders
burn. -/
theorem C112_no_inflation (hh : HostOK h acct) (g : Genesis acct w0) {ts : List Tx} (hp : ∀ x ∈ ts, Possible acct x)
    (hf : ∀ x ∈ ts, Fits x.call) {A : Addr} (hA : acct A) (ht : w0.code t = .token) (ha : (w0.led t).admin = A)
    (hn : ∀ x ∈ ts, x.ctx.signed A = false) {n : Int} (hs : Supply w0.led t n) :
    Supply (run h w0 ts).led t (n - burntBy h t w0 ts) ∧ 0 ≤ burntBy h t w0 ts := by
  have key : ∀ (ts : List Tx) {w : World}, Phoenix.World.Inv h acct w → (∀ x ∈ ts, Possible acct x) →
      (∀ x ∈ ts, x.ctx.signed A = false) → w.code t = .token → (w.led t).admin = A →
      issuedBy h t w ts = -burntBy h t w ts ∧ 0 ≤ burntBy h t w ts := by
    intro ts
    induction ts with
    | nil => intros; simp [issuedBy, burntBy]
    | cons x ts ih =>
      intro w I hp hn ht ha
      have hx := hp x List.mem_cons_self
      obtain ⟨I', gr⟩ := exec_inv hh I hx
      have hd : ((exec h w x).led t).admin = A := by
        cases e : step h w x.ctx x.call with
        | ok w' => rw [exec_ok e]; exact step_admin hh I hx.1 e hA (hn x List.mem_cons_self) (by rw [ht]; simp) ha
        | error z => rw [exec_error e]; exact ha
      obtain ⟨a1, a2⟩ := ih I' (fun y hy => hp y (List.mem_cons_of_mem _ hy)) (fun y hy => hn y (List.mem_cons_of_mem _ hy))
        (code_keep gr ht (by simp)) hd
      simp only [issuedBy, burntBy, a1]
      cases e : step h w x.ctx x.call with
      | ok w' =>
        have b1 := step_issued I hx.1 e hA (hn x List.mem_cons_self) ha
        have b2 := burnt_nonneg (t := t) e
        simp only [b1]
        constructor
        · ring
        · omega
      | error z => simpa using a2
  obtain ⟨a1, a2⟩ := key ts (Phoenix.World.genesis_inv g) hp hn ht ha
  have := C112_history (t := t) hh g hp hf hs
  rw [a1] at this
  exact ⟨by simpa [sub_eq_add_neg] using this, a2⟩

/-! The hypotheses hold in a concrete history: two pools with liquidity, a route through both, a
withdrawal, and a holder who burns 1000 shares of the first pool.  The pool reports 1000 shares
more than exist, and the ten million units of token 20 are all still there. -/

def exBurn : List Tx :=
  Example.setup ++ Example.liquidity ++
    [⟨Example.by' 2, .hopSwap Example.router 2 [⟨21, 20, none⟩, ⟨22, 21, none⟩] none 1000 none none⟩,
     ⟨Example.by' 1, .xyk Example.pool1 (.withdraw 1 5000 1 1 none)⟩,
     ⟨Example.by' 1, .token (Example.host.shareAddr Example.pool1 20 21) (.burn 1 1000)⟩]

theorem exBurn_possible : ∀ x ∈ exBurn, Possible Example.acct x := by
  intro x hx
  unfold exBurn at hx
  rcases List.mem_append.mp hx with k | k
  · exact ex_setup x k
  · simp only [List.mem_cons, List.not_mem_nil, or_false] at k
    rcases k with rfl | rfl | rfl <;> exact possible_by (by decide)

theorem exBurn_fits : ∀ x ∈ exBurn, Fits x.call := by
  intro x hx
  simp only [exBurn, Example.setup, Example.liquidity, List.cons_append, List.nil_append, List.mem_cons, List.not_mem_nil, or_false] at hx
  rcases hx with rfl | rfl | rfl | rfl | rfl | rfl | rfl | rfl | rfl | rfl <;> trivial

theorem ex_supply : Supply Example.start.led 20 10000000 := by
  refine ⟨{1, 2}, fun a ha => ?_, by decide +kernel⟩
  simp only [Finset.mem_insert, Finset.mem_singleton] at ha
  simp [Example.start, Ledger.bal, ha]

example : ∃ n, Reports (run Example.host Example.start exBurn) Example.pool1 (Example.host.shareAddr Example.pool1 20 21) n ∧
    n = 1409213 ∧ Supply (run Example.host Example.start exBurn).led (Example.host.shareAddr Example.pool1 20 21) (n - 1000) := by
  have e : ∃ p, (run Example.host Example.start exBurn).xyk Example.pool1 = some p ∧
      p.cfg.shareToken = Example.host.shareAddr Example.pool1 20 21 ∧ p.total = 1409213 := by
    have k : ((run Example.host Example.start exBurn).xyk Example.pool1).map (fun p => (p.cfg.shareToken, p.total)) =
        some (Example.host.shareAddr Example.pool1 20 21, 1409213) := by decide +kernel
    simpa [Option.map_eq_some_iff] using k
  obtain ⟨p, h1, h2, h3⟩ := e
  refine ⟨p.total, .inl ⟨p, h1, h2, rfl⟩, h3, ?_⟩
  have := C112_shares ex_host ex_genesis exBurn_possible exBurn_fits (.inl ⟨p, h1, h2, rfl⟩)
  rwa [show burntBy Example.host (Example.host.shareAddr Example.pool1 20 21) Example.start exBurn = 1000 by decide +kernel] at this

example : Supply (run Example.host Example.start exBurn).led 20 10000000 := by
  have := (C112_no_inflation (A := 9) (t := 20) ex_host ex_genesis exBurn_possible exBurn_fits (by show (9:Nat) < 20; decide) rfl rfl
    (by decide +kernel) ex_supply).1
  rwa [show burntBy Example.host 20 Example.start exBurn = 0 by decide +kernel] at this

end Phoenix.Props.World
