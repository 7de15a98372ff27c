import Verif.Props.PoolSys
import Verif.Lemmas.Store
/-! C120: a pool run on the key-value store that its source uses behaves exactly as the pool with
one separate field per variable: no write to one entry disturbs another. -/
namespace Phoenix.Store.Pool
open Phoenix Phoenix.Store

section reads
variable {σ : Store} {p : Phoenix.Pool.State}
theorem getConfig_eq (h : Holds σ p) : getConfig σ = .ok p.cfg := load_of h.cfg rfl
theorem getSlippage_eq (h : Holds σ p) : getSlippage σ = .ok p.defaultSlippageBps := load_of h.slippage rfl
theorem getAdmin_eq (h : Holds σ p) : getAdmin σ = .ok p.admin := load_of h.admin rfl
theorem getTotal_eq (h : Holds σ p) : getTotal σ = .ok p.total := load_of h.total rfl
theorem getResA_eq (h : Holds σ p) : getResA σ = .ok p.resA := load_of h.resA rfl
theorem getResB_eq (h : Holds σ p) : getResB σ = .ok p.resB := load_of h.resB rfl
theorem isInit_eq (h : Holds σ p) : isInit σ = .ok true := loadOr_of h.inited rfl
end reads

/-- closes the eight goals about a store with one more entry -/
local macro "put_tac" h:term : tactic => `(tactic|
  (refine ⟨?_, ?_, ?_, ?_, ?_, ?_, ?_, ?_⟩
   · simp [saveSlippage, saveConfig, saveAdmin, saveTotal, saveResA, saveResB, kTotal, kResA, kResB, kAdmin, kConfig, kSlippage, ($h).total]
   · simp [saveSlippage, saveConfig, saveAdmin, saveTotal, saveResA, saveResB, kTotal, kResA, kResB, kAdmin, kConfig, kSlippage, ($h).resA]
   · simp [saveSlippage, saveConfig, saveAdmin, saveTotal, saveResA, saveResB, kTotal, kResA, kResB, kAdmin, kConfig, kSlippage, ($h).resB]
   · simp [saveSlippage, saveConfig, saveAdmin, saveTotal, saveResA, saveResB, kTotal, kResA, kResB, kAdmin, kConfig, kSlippage, ($h).admin]
   · simp [saveSlippage, saveConfig, saveAdmin, saveTotal, saveResA, saveResB, kTotal, kResA, kResB, kAdmin, kConfig, kSlippage, ($h).inited]
   · simp [saveSlippage, saveConfig, saveAdmin, saveTotal, saveResA, saveResB, kTotal, kResA, kResB, kAdmin, kConfig, kSlippage, ($h).cfg]
   · simp [saveSlippage, saveConfig, saveAdmin, saveTotal, saveResA, saveResB, kTotal, kResA, kResB, kAdmin, kConfig, kSlippage, ($h).slippage]
   · intro d k hk
     simp only [saveSlippage, saveConfig, saveAdmin, saveTotal, saveResA, saveResB, kTotal, kResA, kResB, kAdmin, kConfig, kSlippage, get_set] at hk
     split at hk
     · rename_i he; simp [he.1, he.2]
     · exact ($h).only d k hk))

section writes
variable {σ : Store} {p : Phoenix.Pool.State}
theorem saveSlippage_holds (h : Holds σ p) (x : Int) : Holds (saveSlippage σ x) { p with defaultSlippageBps := x } := by put_tac h
theorem saveConfig_holds (h : Holds σ p) (x : Phoenix.Pool.Config) : Holds (saveConfig σ x) { p with cfg := x } := by put_tac h
theorem saveAdmin_holds (h : Holds σ p) (x : Addr) : Holds (saveAdmin σ x) { p with admin := x } := by put_tac h
theorem saveTotal_holds (h : Holds σ p) (x : Int) : Holds (saveTotal σ x) { p with total := x } := by put_tac h
theorem saveResA_holds (h : Holds σ p) (x : Int) : Holds (saveResA σ x) { p with resA := x } := by put_tac h
theorem saveResB_holds (h : Holds σ p) (x : Int) : Holds (saveResB σ x) { p with resB := x } := by put_tac h
end writes

/-- The same store and the same ledger. -/
def R2 (a : Store × Ledger) (b : Phoenix.Pool.State × Ledger) : Prop := Holds a.1 b.1 ∧ a.2 = b.2

variable {σ : Store} {p : Phoenix.Pool.State} {me : Addr} {c : Ctx} {L : Ledger}

theorem mintShares_same (h : Holds σ p) (to_ : Addr) (x : Int) :
    Same R2 (mintShares me c σ L p.cfg.shareToken to_ x) (Phoenix.Pool.mintShares me c p L to_ x) := by
  unfold mintShares Phoenix.Pool.mintShares
  simp only [getTotal_eq h, ok_bind']
  refine Same.bind_same fun L' _ => Same.bind_same fun t _ => ?_
  exact ⟨saveTotal_holds h t, rfl⟩

theorem burnShares_same (h : Holds σ p) (x : Int) :
    Same R2 (burnShares me c σ L p.cfg.shareToken x) (Phoenix.Pool.burnShares me c p L x) := by
  unfold burnShares Phoenix.Pool.burnShares
  simp only [getTotal_eq h, ok_bind']
  refine Same.bind_same fun L' _ => Same.bind_same fun t _ => ?_
  exact ⟨saveTotal_holds h t, rfl⟩

theorem newShares_same (h : Holds σ p) (a b x y : Int) :
    Same (fun r s => r.1 = s.1 ∧ Holds r.2.1 s.2.1 ∧ r.2.2 = s.2.2 ∧ s.2.1.cfg = p.cfg)
      (newShares me c σ L p.cfg.shareToken a b x y p.resA p.resB p.total)
      (Phoenix.Pool.newShares me c p L a b x y) := by
  unfold newShares Phoenix.Pool.newShares
  refine Same.ite (fun _ => ?_) (fun _ => ?_)
  · refine Same.bind_same fun _ _ => Same.bind_same fun _ _ => Same.bind_same fun _ _ => Same.bind_same fun _ _ => ?_
    exact ⟨rfl, h, rfl, rfl⟩
  · refine Same.bind_same fun m _ => Same.bind_same fun s _ => Same.bind_same fun _ _ => ?_
    have hm := mintShares_same (me := me) (c := c) (L := L) h me Phoenix.Pool.MINIMUM_LIQUIDITY
    cases h1 : mintShares me c σ L p.cfg.shareToken me Phoenix.Pool.MINIMUM_LIQUIDITY with
    | error e =>
      rw [h1] at hm
      cases h2 : Phoenix.Pool.mintShares me c p L me Phoenix.Pool.MINIMUM_LIQUIDITY with
      | error e' => rw [h2] at hm; exact hm
      | ok b => rw [h2] at hm; exact hm.elim
    | ok r =>
      rw [h1] at hm
      cases h2 : Phoenix.Pool.mintShares me c p L me Phoenix.Pool.MINIMUM_LIQUIDITY with
      | error e' => rw [h2] at hm; exact hm.elim
      | ok q =>
        rw [h2] at hm
        obtain ⟨σ1, L1⟩ := r
        obtain ⟨p1, L1'⟩ := q
        obtain ⟨hh, hl⟩ := hm
        have hc : p1.cfg = p.cfg := by
          unfold Phoenix.Pool.mintShares at h2
          obtain ⟨_, _, h2⟩ := bind_ok.mp h2
          obtain ⟨_, _, h2⟩ := bind_ok.mp h2
          cases h2; rfl
        simp only [ok_bind']
        exact Same.bind_same fun n _ => ⟨rfl, hh, hl, hc⟩

theorem chooseAmounts_eq (h : Holds σ p) (dA mA dB mB cu : Option Int) :
    chooseAmounts σ p.resA p.resB dA mA dB mB cu = Phoenix.Pool.chooseAmounts p dA mA dB mB cu := by
  unfold chooseAmounts Phoenix.Pool.chooseAmounts
  simp only [getSlippage_eq h, ok_bind']
  cases dA <;> cases dB <;> rfl

theorem provide_same (h : Holds σ p) (sender : Addr) (dA mA dB mB cu : Option Int) (dl : Option Nat) :
    Same R2 (provide me c σ L sender dA mA dB mB cu dl)
      (Phoenix.Pool.provide me c p L sender dA mA dB mB cu dl) := by
  unfold provide Phoenix.Pool.provide Phoenix.Pool.checkSlippage
  simp only [getConfig_eq h, getResA_eq h, getResB_eq h, getTotal_eq h, chooseAmounts_eq h, ok_bind']
  refine Same.bind_same fun _ _ => Same.bind_same fun _ _ => Same.bind_same fun _ _ => Same.bind_same fun _ _ =>
    Same.bind_same fun _ _ => Same.bind_same fun _ _ => Same.bind_same fun _ _ => Same.bind_same fun ab _ => ?_
  obtain ⟨a, b⟩ := ab
  refine Same.bind_same fun L1 _ => Same.bind_same fun L2 _ => Same.bind_same fun _ _ => Same.bind_same fun _ _ => ?_
  refine Same.bind (newShares_same h _ _ _ _) ?_
  rintro ⟨n, σ1, L3⟩ ⟨n', p1, L3'⟩ ⟨rfl, hh, hl, hc⟩
  subst hl
  refine Same.bind_same fun m _ => ?_
  have hm := mintShares_same (me := me) (c := c) (L := L3) hh sender m
  rw [hc] at hm
  refine Same.bind hm ?_
  rintro ⟨σ2, L4⟩ ⟨p2, L4'⟩ ⟨h2, hl⟩
  subst hl
  exact ⟨saveResB_holds (saveResA_holds h2 _) _, rfl⟩

theorem sides_eq (offer : Addr) : sides p.cfg p.resA p.resB offer = Phoenix.Pool.sides p offer := rfl

theorem swapReserves_same (h : Holds σ p) (offer : Addr) (x : Int) (r : Phoenix.Pool.ComputeSwap) :
    Same (fun (ab : Int × Int) (q : Phoenix.Pool.State) => q = { p with resA := ab.1, resB := ab.2 })
      (swapReserves p.cfg p.resA p.resB offer x r) (Phoenix.Pool.swapReserves p offer x r) := by
  unfold swapReserves Phoenix.Pool.swapReserves
  refine Same.ite (fun _ => ?_) (fun _ => ?_) <;>
  exact Same.bind_same fun _ _ => Same.bind_same fun _ _ => Same.bind_same fun _ _ => Same.bind_same fun _ _ => rfl

theorem swap_same (h : Holds σ p) (sender offer : Addr) (x : Int) (mo ms : Option Int) (dl : Option Nat)
    (mf : Option Int) :
    Same (fun (a : Store × Ledger × Int) b => Holds a.1 b.1 ∧ a.2 = b.2) (swap me c σ L sender offer x mo ms dl mf)
      (Phoenix.Pool.swap me c p L sender offer x mo ms dl mf) := by
  unfold swap Phoenix.Pool.swap Phoenix.Pool.doSwap Phoenix.Pool.swapLimits Phoenix.Pool.tokensOf
  simp only [getConfig_eq h, getResA_eq h, getResB_eq h, sides_eq, ok_bind', bind_assoc]
  refine Same.bind_same fun _ _ => Same.bind_same fun _ _ => Same.bind_same fun _ _ => Same.bind_same fun _ _ =>
    Same.bind_same fun _ _ => Same.bind_same fun _ _ => Same.bind_same fun ss _ => ?_
  obtain ⟨s, b⟩ := ss
  refine Same.bind_same fun _ _ => Same.bind_same fun r _ => Same.bind_same fun _ _ => Same.bind_same fun _ _ =>
    Same.bind_same fun _ _ => Same.bind_same fun _ _ => ?_
  have e1 : (if offer = p.cfg.tokenA then (p.cfg.tokenA, p.cfg.tokenB) else (p.cfg.tokenB, p.cfg.tokenA)).1 =
      if offer = p.cfg.tokenA then p.cfg.tokenA else p.cfg.tokenB := by split <;> rfl
  have e2 : (if offer = p.cfg.tokenA then (p.cfg.tokenA, p.cfg.tokenB) else (p.cfg.tokenB, p.cfg.tokenA)).2 =
      if offer = p.cfg.tokenA then p.cfg.tokenB else p.cfg.tokenA := by split <;> rfl
  simp only [e1, e2]
  refine Same.bind_same fun L1 _ => Same.bind_same fun _ _ => Same.bind_same fun L2 _ => Same.bind_same fun L3 _ => ?_
  refine Same.bind (swapReserves_same h _ _ _) ?_
  rintro ⟨a, b⟩ q rfl
  exact ⟨saveResB_holds (saveResA_holds h a) b, rfl⟩

theorem withdraw_same (h : Holds σ p) (sender : Addr) (x mA mB : Int) (dl : Option Nat) :
    Same (fun (a : Store × Ledger × Int × Int) b => Holds a.1 b.1 ∧ a.2 = b.2) (withdraw me c σ L sender x mA mB dl)
      (Phoenix.Pool.withdraw me c p L sender x mA mB dl) := by
  unfold withdraw Phoenix.Pool.withdraw
  simp only [getConfig_eq h, getResA_eq h, getResB_eq h, getTotal_eq h, ok_bind']
  refine Same.bind_same fun _ _ => Same.bind_same fun _ _ => Same.bind_same fun _ _ => Same.bind_same fun _ _ =>
    Same.bind_same fun _ _ => Same.bind_same fun L1 _ => Same.bind_same fun _ _ => Same.bind_same fun _ _ =>
    Same.bind_same fun _ _ => Same.bind_same fun _ _ => Same.bind_same fun _ _ => ?_
  refine Same.bind (burnShares_same h x) ?_
  rintro ⟨σ1, L2⟩ ⟨p1, L2'⟩ ⟨h1, hl⟩
  subst hl
  refine Same.bind_same fun L3 _ => Same.bind_same fun L4 _ => Same.bind_same fun a _ => Same.bind_same fun b _ => ?_
  exact ⟨saveResB_holds (saveResA_holds h1 a) b, rfl⟩

theorem updateConfig_same (h : Holds σ p) (u : Phoenix.Pool.ConfigUpdate) :
    Same Holds (updateConfig c σ u) (Phoenix.Pool.updateConfig c p u) := by
  unfold updateConfig Phoenix.Pool.updateConfig
  simp only [getConfig_eq h, getAdmin_eq h, ok_bind']
  refine Same.bind_same fun _ _ => Same.bind_same fun _ _ => Same.bind_same fun _ _ => Same.bind_same fun _ _ =>
    Same.bind_same fun _ _ => ?_
  have h1 : Holds (putAdmin σ u.newAdmin) { p with admin := u.newAdmin.getD p.admin } := by
    cases u.newAdmin with
    | none => exact h
    | some a => exact saveAdmin_holds h a
  exact saveConfig_holds h1 _

theorem upgrade_same (h : Holds σ p) (x : Int) :
    Same Holds (upgrade c σ x) (Phoenix.Pool.upgrade c p x) := by
  unfold upgrade Phoenix.Pool.upgrade
  simp only [getAdmin_eq h, ok_bind']
  exact Same.bind_same fun _ _ => saveSlippage_holds h x

theorem init_same {o : Option Phoenix.Pool.State} (h : Stores σ o) (i : Phoenix.Pool.InitArgs) :
    Same R2 (init me σ L i) (Phoenix.Pool.init me o L i) := by
  cases o with
  | some p =>
    have hi : isInit σ = .ok true := isInit_eq h
    unfold init Phoenix.Pool.init
    rw [hi]
    exact rfl
  | none =>
    have hi : isInit σ = .ok false := loadOr_none (h _ _)
    unfold init Phoenix.Pool.init
    simp only [hi, ok_bind']
    refine Same.bind (Q := fun _ _ => True) (by exact trivial) fun _ _ _ => ?_
    refine Same.bind_same fun _ _ => Same.bind_same fun _ _ => Same.bind_same fun _ _ => Same.bind_same fun _ _ =>
      Same.bind_same fun _ _ => Same.bind_same fun _ _ => Same.bind_same fun _ _ => Same.bind_same fun _ _ =>
      Same.bind_same fun t _ => Same.bind_same fun _ _ => Same.bind_same fun _ _ => Same.bind_same fun _ _ => ?_
    have hb : ∀ d k, get σ d k = none := h
    refine ⟨⟨?_, ?_, ?_, ?_, ?_, ?_, ?_, ?_⟩, rfl⟩
    all_goals first
      | (simp [saveSlippage, saveConfig, saveAdmin, saveTotal, saveResA, saveResB, setInit, kTotal, kResA, kResB,
          kAdmin, kConfig, kSlippage, kInit]; done)
      | skip
    intro d k hk
    simp only [saveSlippage, saveConfig, saveAdmin, saveTotal, saveResA, saveResB, setInit, kTotal, kResA, kResB,
      kAdmin, kConfig, kSlippage, kInit, get_set, hb] at hk
    repeat' split at hk
    all_goals first
      | exact absurd rfl hk
      | (rename_i he; rcases he with ⟨rfl, rfl⟩; simp)

theorem pool_call (h : Holds σ p) (L : Ledger)
    (t : Phoenix.Pool.Tx) :
    Same (fun (a : Store × Ledger) (s : Phoenix.Pool.Sys) => Stores a.1 s.pool ∧ a.2 = s.led)
      (step me (σ, L) t) (Phoenix.Pool.step me ⟨some p, L⟩ t) := by
  cases t with
  | token c tok op =>
    simp only [step, Phoenix.Pool.step]
    exact Same.bind_same fun L' _ => ⟨h, rfl⟩
  | pool c k =>
    cases k with
    | init i =>
      have := init_same (me := me) (L := L) (o := some p) h i
      simp only [step, Phoenix.Pool.step]
      rw [← bind_pure (init me σ L i)]
      refine Same.bind this ?_
      rintro ⟨σ', L'⟩ ⟨p', L''⟩ ⟨h1, h2⟩
      exact ⟨h1, h2⟩
    | provide sender dA mA dB mB cu dl =>
      simp only [step, Phoenix.Pool.step, Phoenix.Pool.loaded, ok_bind']
      rw [← bind_pure (provide me c σ L sender dA mA dB mB cu dl)]
      refine Same.bind (provide_same h sender dA mA dB mB cu dl) ?_
      rintro ⟨σ', L'⟩ ⟨p', L''⟩ ⟨h1, h2⟩
      exact ⟨h1, h2⟩
    | swap sender offer x mo ms dl mf =>
      simp only [step, Phoenix.Pool.step, Phoenix.Pool.loaded, ok_bind']
      refine Same.bind (swap_same h sender offer x mo ms dl mf) ?_
      rintro ⟨σ', L', r⟩ ⟨p', L'', r'⟩ ⟨h1, h2⟩
      simp only [Prod.mk.injEq] at h2
      exact ⟨h1, h2.1⟩
    | withdraw sender x mA mB dl =>
      simp only [step, Phoenix.Pool.step, Phoenix.Pool.loaded, ok_bind']
      refine Same.bind (withdraw_same h sender x mA mB dl) ?_
      rintro ⟨σ', L', r⟩ ⟨p', L'', r'⟩ ⟨h1, h2⟩
      simp only [Prod.mk.injEq] at h2
      exact ⟨h1, h2.1⟩
    | updateConfig u =>
      simp only [step, Phoenix.Pool.step, Phoenix.Pool.loaded, ok_bind']
      exact Same.bind (updateConfig_same h u) fun _ _ h1 => ⟨h1, rfl⟩
    | upgrade x =>
      simp only [step, Phoenix.Pool.step, Phoenix.Pool.loaded, ok_bind']
      exact Same.bind (upgrade_same h x) fun _ _ h1 => ⟨h1, rfl⟩


/-! A pool that was never initialised answers no call. -/

theorem getConfig_blank (h : Blank σ) : getConfig σ = .error .panic := load_none (h _ _)
theorem getAdmin_blank (h : Blank σ) : getAdmin σ = .error .panic := load_none (h _ _)

theorem provide_blank (h : Blank σ) {sender : Addr} {dA mA dB mB cu : Option Int} {dl : Option Nat} (r : Store × Ledger) :
    provide me c σ L sender dA mA dB mB cu dl ≠ .ok r := by
  intro hr
  unfold provide at hr
  obtain ⟨_, _, hr⟩ := bind_ok.mp hr
  obtain ⟨_, _, hr⟩ := bind_ok.mp hr
  obtain ⟨_, _, hr⟩ := bind_ok.mp hr
  obtain ⟨_, _, hr⟩ := bind_ok.mp hr
  obtain ⟨_, _, hr⟩ := bind_ok.mp hr
  obtain ⟨_, _, hr⟩ := bind_ok.mp hr
  obtain ⟨_, hg, hr⟩ := bind_ok.mp hr
  rw [getConfig_blank h] at hg; cases hg

theorem swap_blank (h : Blank σ) {sender offer : Addr} {x : Int} {mo ms : Option Int} {dl : Option Nat}
    {mf : Option Int} (r : Store × Ledger × Int) : swap me c σ L sender offer x mo ms dl mf ≠ .ok r := by
  intro hr
  unfold swap at hr
  obtain ⟨_, _, hr⟩ := bind_ok.mp hr
  obtain ⟨_, _, hr⟩ := bind_ok.mp hr
  obtain ⟨_, _, hr⟩ := bind_ok.mp hr
  obtain ⟨_, hg, hr⟩ := bind_ok.mp hr
  rw [getConfig_blank h] at hg; cases hg

theorem withdraw_blank (h : Blank σ) {sender : Addr} {x mA mB : Int} {dl : Option Nat}
    (r : Store × Ledger × Int × Int) : withdraw me c σ L sender x mA mB dl ≠ .ok r := by
  intro hr
  unfold withdraw at hr
  obtain ⟨_, _, hr⟩ := bind_ok.mp hr
  obtain ⟨_, _, hr⟩ := bind_ok.mp hr
  obtain ⟨_, _, hr⟩ := bind_ok.mp hr
  obtain ⟨_, _, hr⟩ := bind_ok.mp hr
  obtain ⟨_, _, hr⟩ := bind_ok.mp hr
  obtain ⟨_, hg, hr⟩ := bind_ok.mp hr
  rw [getConfig_blank h] at hg; cases hg

/-- One transaction, before or after `initialize`. -/
theorem step_alike {o : Option Phoenix.Pool.State} (h : Stores σ o) (L : Ledger) (t : Phoenix.Pool.Tx) :
    Alike (fun (a : Store × Ledger) (s : Phoenix.Pool.Sys) => Stores a.1 s.pool ∧ a.2 = s.led)
      (step me (σ, L) t) (Phoenix.Pool.step me ⟨o, L⟩ t) := by
  cases o with
  | some p => exact (pool_call h L t).alike
  | none =>
    cases t with
    | token c tok op =>
      simp only [step, Phoenix.Pool.step]
      refine Same.alike (Same.bind_same fun L' _ => ?_)
      exact ⟨h, rfl⟩
    | pool c k =>
      cases k with
      | init i =>
        simp only [step, Phoenix.Pool.step]
        rw [← bind_pure (init me σ L i)]
        refine (Same.bind (init_same (me := me) (L := L) (o := none) h i) ?_).alike
        rintro ⟨σ', L'⟩ ⟨p', L''⟩ ⟨h1, h2⟩
        exact ⟨h1, h2⟩
      | provide sender dA mA dB mB cu dl =>
        refine Alike.errors (fun r hr => ?_) (fun r hr => by simp [Phoenix.Pool.step, Phoenix.Pool.loaded, Bind.bind, Except.bind] at hr)
        exact provide_blank h r hr
      | swap sender offer x mo ms dl mf =>
        refine Alike.errors (fun r hr => ?_) (fun r hr => by simp [Phoenix.Pool.step, Phoenix.Pool.loaded, Bind.bind, Except.bind] at hr)
        obtain ⟨q, hq, _⟩ := bind_ok.mp hr
        exact swap_blank h q hq
      | withdraw sender x mA mB dl =>
        refine Alike.errors (fun r hr => ?_) (fun r hr => by simp [Phoenix.Pool.step, Phoenix.Pool.loaded, Bind.bind, Except.bind] at hr)
        obtain ⟨q, hq, _⟩ := bind_ok.mp hr
        exact withdraw_blank h q hq
      | updateConfig u =>
        refine Alike.errors (fun r hr => ?_) (fun r hr => by simp [Phoenix.Pool.step, Phoenix.Pool.loaded, Bind.bind, Except.bind] at hr)
        simp [step, updateConfig, getAdmin_blank h, Bind.bind, Except.bind] at hr
      | upgrade x =>
        refine Alike.errors (fun r hr => ?_) (fun r hr => by simp [Phoenix.Pool.step, Phoenix.Pool.loaded, Bind.bind, Except.bind] at hr)
        simp [step, upgrade, getAdmin_blank h, Bind.bind, Except.bind] at hr

theorem run_stores (ts : List Phoenix.Pool.Tx) {o : Option Phoenix.Pool.State} (h : Stores σ o) (L : Ledger) :
    Stores (run me (σ, L) ts).1 (Phoenix.Pool.run me ⟨o, L⟩ ts).pool ∧
      (run me (σ, L) ts).2 = (Phoenix.Pool.run me ⟨o, L⟩ ts).led := by
  induction ts generalizing σ o L with
  | nil => exact ⟨h, rfl⟩
  | cons t ts ih =>
    have hs := step_alike (me := me) h L t
    have e1 : run me (σ, L) (t :: ts) = run me (exec me (σ, L) t) ts := rfl
    have e2 : Phoenix.Pool.run me ⟨o, L⟩ (t :: ts) = Phoenix.Pool.run me (Phoenix.Pool.exec me ⟨o, L⟩ t) ts := rfl
    rw [e1, e2]
    unfold exec Phoenix.Pool.exec
    cases h1 : step me (σ, L) t with
    | error e =>
      cases h2 : Phoenix.Pool.step me ⟨o, L⟩ t with
      | error e' => exact ih h L
      | ok s => rw [h1, h2] at hs; exact hs.elim
    | ok a =>
      cases h2 : Phoenix.Pool.step me ⟨o, L⟩ t with
      | error e' => rw [h1, h2] at hs; exact hs.elim
      | ok s =>
        rw [h1, h2] at hs
        obtain ⟨σ', L'⟩ := a
        obtain ⟨o', L''⟩ := s
        obtain ⟨hh, hl⟩ := hs
        simp only at hl hh
        subst hl
        exact ih hh L'

end Phoenix.Store.Pool

namespace Phoenix.Props
open Phoenix Phoenix.Store Phoenix.Store.Pool

/-- C120: every call of an initialised pool, made against the key-value store of its source, has
the outcome of the record model: the same result or the same failure, the same tokens, and a
store that again holds exactly the new record. -/
theorem C120_pool_call {me : Addr} {σ : Store} {p : Phoenix.Pool.State} (h : Holds σ p) (L : Ledger)
    (t : Phoenix.Pool.Tx) :
    Same (fun (a : Store × Ledger) (s : Phoenix.Pool.Sys) => Stores a.1 s.pool ∧ a.2 = s.led)
      (Store.Pool.step me (σ, L) t) (Phoenix.Pool.step me ⟨some p, L⟩ t) := pool_call h L t

/-- C120: over any history, starting with an empty store, the pool's store holds exactly the record
of the model (nothing before `initialize`), and the tokens are the same. -/
theorem C120_pool_history (me : Addr) (L : Ledger) (ts : List Phoenix.Pool.Tx) :
    Stores (Store.Pool.run me ([], L) ts).1 (Phoenix.Pool.run me ⟨none, L⟩ ts).pool ∧
      (Store.Pool.run me ([], L) ts).2 = (Phoenix.Pool.run me ⟨none, L⟩ ts).led :=
  run_stores (o := none) ts blank_nil L

/-! The history of Props/PoolSys, run on a store: initialisation, a deposit, a swap, a failed and a
successful withdrawal; the store then holds the record of the model. -/
example : Store.Pool.getTotal (Store.Pool.run 100 ([], exStart.led) exHist).1 = .ok 914213 ∧
    Store.Pool.getResA (Store.Pool.run 100 ([], exStart.led) exHist).1 = .ok 647093 ∧
    Store.Pool.getResB (Store.Pool.run 100 ([], exStart.led) exHist).1 = .ok 1291601 := by decide +kernel
example : ∃ p, Holds (Store.Pool.run 100 ([], exStart.led) exHist).1 p ∧ p.total = 914213 := by
  have h := (C120_pool_history 100 exStart.led exHist).1
  have e : (Phoenix.Pool.run 100 exStart exHist).pool.map (·.total) = some 914213 := by decide +kernel
  obtain ⟨p, hp, ht⟩ := Option.map_eq_some_iff.mp e
  have hp' : (Phoenix.Pool.run 100 ⟨none, exStart.led⟩ exHist).pool = some p := hp
  rw [hp'] at h
  exact ⟨p, h, ht⟩

end Phoenix.Props
