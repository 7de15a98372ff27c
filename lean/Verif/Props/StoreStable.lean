import Verif.Props.StableSwap
import Verif.Lemmas.Store
import Verif.Spec.StoreStable
/-! C120 for the stable pool: run on the key-value store that its source uses, it behaves exactly as
the record model. -/
namespace Phoenix.Store.Stable
open Phoenix Phoenix.Store

section reads
variable {σ : Store} {p : Phoenix.Stable.State}
theorem getConfig_eq (h : Holds σ p) : getConfig σ = .ok p.cfg := load_of h.cfg rfl
theorem getAdmin_eq (h : Holds σ p) : getAdmin σ = .ok p.admin := load_of h.admin rfl
theorem getTotal_eq (h : Holds σ p) : getTotal σ = .ok p.total := load_of h.total rfl
theorem getResA_eq (h : Holds σ p) : getResA σ = .ok p.resA := load_of h.resA rfl
theorem getResB_eq (h : Holds σ p) : getResB σ = .ok p.resB := load_of h.resB rfl
theorem getAmp_eq (h : Holds σ p) : getAmp σ = .ok p.amp := load_of h.amp rfl
theorem getMaxPrec_eq (h : Holds σ p) : getMaxPrec σ = .ok p.maxPrec := load_of h.maxPrec rfl
theorem getPrecA_eq (h : Holds σ p) : getPrec σ p.cfg.tokenA = .ok p.precA := load_of h.precA rfl
theorem getPrecB_eq (h : Holds σ p) : getPrec σ p.cfg.tokenB = .ok p.precB := load_of h.precB rfl
theorem isInit_eq (h : Holds σ p) : isInit σ = .ok true := loadOr_of h.inited rfl
end reads

/-- closes the goals about a store with one more entry -/
local macro "put_tac" h:term : tactic => `(tactic|
  (refine ⟨?_, ?_, ?_, ?_, ?_, ?_, ?_, ?_, ?_, ?_, ?_⟩
   · simp [saveConfig, saveAdmin, saveTotal, saveResA, saveResB, kTotal, kResA, kResB, kAdmin, kConfig, ($h).total]
   · simp [saveConfig, saveAdmin, saveTotal, saveResA, saveResB, kTotal, kResA, kResB, kAdmin, kConfig, ($h).resA]
   · simp [saveConfig, saveAdmin, saveTotal, saveResA, saveResB, kTotal, kResA, kResB, kAdmin, kConfig, ($h).resB]
   · simp [saveConfig, saveAdmin, saveTotal, saveResA, saveResB, kTotal, kResA, kResB, kAdmin, kConfig, ($h).admin]
   · simp [saveConfig, saveAdmin, saveTotal, saveResA, saveResB, kTotal, kResA, kResB, kAdmin, kConfig, ($h).inited]
   · simp [saveConfig, saveAdmin, saveTotal, saveResA, saveResB, kTotal, kResA, kResB, kAdmin, kConfig, ($h).amp]
   · simp [saveConfig, saveAdmin, saveTotal, saveResA, saveResB, kTotal, kResA, kResB, kAdmin, kConfig, ($h).maxPrec]
   · simp [saveConfig, saveAdmin, saveTotal, saveResA, saveResB, kTotal, kResA, kResB, kAdmin, kConfig, ($h).precA]
   · simp [saveConfig, saveAdmin, saveTotal, saveResA, saveResB, kTotal, kResA, kResB, kAdmin, kConfig, ($h).precB]
   · simp [saveConfig, saveAdmin, saveTotal, saveResA, saveResB, kTotal, kResA, kResB, kAdmin, kConfig, ($h).cfg]
   · intro d k hk
     simp only [saveConfig, saveAdmin, saveTotal, saveResA, saveResB, kTotal, kResA, kResB, kAdmin, kConfig, get_set] at hk
     split at hk
     · rename_i he; simp [he.1, he.2]
     · exact ($h).only d k hk))

section writes
variable {σ : Store} {p : Phoenix.Stable.State}
theorem saveAdmin_holds (h : Holds σ p) (x : Addr) : Holds (saveAdmin σ x) { p with admin := x } := by put_tac h
theorem saveTotal_holds (h : Holds σ p) (x : Int) : Holds (saveTotal σ x) { p with total := x } := by put_tac h
theorem saveResA_holds (h : Holds σ p) (x : Int) : Holds (saveResA σ x) { p with resA := x } := by put_tac h
theorem saveResB_holds (h : Holds σ p) (x : Int) : Holds (saveResB σ x) { p with resB := x } := by put_tac h
/-- writing a configuration with the same two tokens -/
theorem saveConfig_holds (h : Holds σ p) (f : Int) (r : Addr) (m s : Int) :
    Holds (saveConfig σ { p.cfg with totalFeeBps := f, feeRecipient := r, maxSlippageBps := m, maxSpreadBps := s })
      { p with cfg := { p.cfg with totalFeeBps := f, feeRecipient := r, maxSlippageBps := m, maxSpreadBps := s } } := by
  put_tac h
end writes

/-- The same store and the same ledger. -/
def R2 (a : Store × Ledger) (b : Phoenix.Stable.State × Ledger) : Prop := Holds a.1 b.1 ∧ a.2 = b.2

variable {σ : Store} {p : Phoenix.Stable.State} {me : Addr} {c : Ctx} {L : Ledger}

theorem mintShares_same (h : Holds σ p) (to_ : Addr) (x : Int) :
    Same R2 (mintShares me c σ L p.cfg.shareToken to_ x) (Phoenix.Stable.mintShares me c p L to_ x) := by
  unfold mintShares Phoenix.Stable.mintShares
  simp only [getTotal_eq h, ok_bind']
  refine Same.bind_same fun L' _ => Same.bind_same fun t _ => ?_
  exact ⟨saveTotal_holds h t, rfl⟩

theorem burnShares_same (h : Holds σ p) (x : Int) :
    Same R2 (burnShares me c σ L p.cfg.shareToken x) (Phoenix.Stable.burnShares me c p L x) := by
  unfold burnShares Phoenix.Stable.burnShares
  simp only [getTotal_eq h, ok_bind']
  refine Same.bind_same fun L' _ => Same.bind_same fun t _ => ?_
  exact ⟨saveTotal_holds h t, rfl⟩

theorem newShares_eq (amp decA decB d : Nat) :
    newShares p.total p.resA p.resB p.maxPrec amp decA decB d = Phoenix.Stable.newShares p amp decA decB d := rfl

theorem provide_same (h : Holds σ p) (sender : Addr) (a b : Int) (cu : Option Int) (dl ms : Option Nat) :
    Same R2 (provide me c σ L sender a b cu dl ms) (Phoenix.Stable.provide me c p L sender a b cu dl ms) := by
  unfold provide Phoenix.Stable.provide
  simp only [getConfig_eq h, getResA_eq h, getResB_eq h, getTotal_eq h, getMaxPrec_eq h, getAmp_eq h, newShares_eq, ok_bind']
  refine Same.bind_same fun _ _ => Same.bind_same fun _ _ => Same.bind_same fun _ _ => Same.bind_same fun _ _ =>
    Same.bind_same fun _ _ => Same.bind_same fun _ _ => Same.bind_same fun L1 _ => Same.bind_same fun L2 _ =>
    Same.bind_same fun _ _ => Same.bind_same fun _ _ => Same.bind_same fun _ _ => Same.bind_same fun _ _ =>
    Same.bind_same fun _ _ => Same.bind_same fun _ _ => Same.bind_same fun _ _ => Same.bind_same fun _ _ =>
    Same.bind_same fun _ _ => Same.bind_same fun s _ => ?_
  refine Same.bind (mintShares_same h sender s) ?_
  rintro ⟨σ2, L4⟩ ⟨p2, L4'⟩ ⟨h2, hl⟩
  subst hl
  exact ⟨saveResB_holds (saveResA_holds h2 _) _, rfl⟩

theorem computeSwap_eq (h : Holds σ p) (now x px y py a : Nat) (rate : Int) :
    computeSwap now σ x px y py a rate = Phoenix.Stable.computeSwap now p x px y py a rate := by
  unfold computeSwap Phoenix.Stable.computeSwap
  rw [getAmp_eq h, ok_bind']
  refine bind_congr fun amp => ?_
  rw [getMaxPrec_eq h, ok_bind']

theorem swapReserves_same (offer : Addr) (x : Int) (r : Phoenix.Stable.Quote) :
    Same (fun (ab : Int × Int) (q : Phoenix.Stable.State) => q = { p with resA := ab.1, resB := ab.2 })
      (swapReserves p.cfg p.resA p.resB offer x r) (Phoenix.Stable.swapReserves p offer x r) := by
  unfold swapReserves Phoenix.Stable.swapReserves
  refine Same.ite (fun _ => ?_) (fun _ => ?_) <;>
  exact Same.bind_same fun _ _ => Same.bind_same fun _ _ => Same.bind_same fun _ _ => rfl

/-- the sides, with the precisions the store has for the two tokens -/
theorem sides_same (h : Holds σ p) (offer : Addr) :
    Same (fun (r : Addr × Int × Addr × Int) (s : Phoenix.Stable.Side × Phoenix.Stable.Side) =>
        r.1 = s.1.tok ∧ r.2.1 = s.1.res ∧ r.2.2.1 = s.2.tok ∧ r.2.2.2 = s.2.res ∧
          getPrec σ s.1.tok = .ok s.1.prec ∧ getPrec σ s.2.tok = .ok s.2.prec)
      (sides p.cfg p.resA p.resB offer) (Phoenix.Stable.sides p offer) := by
  unfold sides Phoenix.Stable.sides
  refine Same.ite (fun _ => ?_) (fun _ => Same.ite (fun _ => ?_) (fun _ => rfl))
  · exact ⟨rfl, rfl, rfl, rfl, getPrecA_eq h, getPrecB_eq h⟩
  · exact ⟨rfl, rfl, rfl, rfl, getPrecB_eq h, getPrecA_eq h⟩

theorem quote_eq (h : Holds σ p) {s b : Phoenix.Stable.Side} (hs : getPrec σ s.tok = .ok s.prec)
    (hb : getPrec σ b.tok = .ok b.prec) (now : Nat) (a : Int) :
    quote now σ p.cfg s.tok s.res b.tok b.res a = Phoenix.Stable.quote now p s b a := by
  unfold quote Phoenix.Stable.quote
  simp only [hs, hb, computeSwap_eq h, ok_bind']

theorem swap_same (h : Holds σ p) (sender offer : Addr) (x : Int) (mo ms : Option Int) (dl : Option Nat)
    (mf : Option Int) :
    Same (fun (a : Store × Ledger × Int) b => Holds a.1 b.1 ∧ a.2 = b.2) (swap me c σ L sender offer x mo ms dl mf)
      (Phoenix.Stable.swap me c p L sender offer x mo ms dl mf) := by
  unfold swap Phoenix.Stable.swap Phoenix.Stable.doSwap Phoenix.Stable.swapLimits
  simp only [getConfig_eq h, getResA_eq h, getResB_eq h, ok_bind', bind_assoc]
  refine Same.bind_same fun _ _ => Same.bind_same fun _ _ => Same.bind_same fun _ _ => Same.bind_same fun _ _ =>
    Same.bind_same fun _ _ => Same.bind_same fun _ _ => Same.bind_same fun _ _ => ?_
  refine Same.bind (sides_same h offer) ?_
  rintro ⟨r1, r2, r3, r4⟩ ⟨s, b⟩ ⟨e1, e2, e3, e4, hs, hb⟩
  simp only at e1 e2 e3 e4 hs hb
  subst e1 e2 e3 e4
  simp only [quote_eq h hs hb]
  refine Same.bind_same fun r _ => Same.bind_same fun _ _ => Same.bind_same fun _ _ => Same.bind_same fun _ _ => ?_
  refine Same.bind_same fun L1 _ => Same.bind_same fun _ _ => Same.bind_same fun L2 _ => Same.bind_same fun L3 _ => ?_
  refine Same.bind (swapReserves_same _ _ _) ?_
  rintro ⟨a, b⟩ q rfl
  exact ⟨saveResB_holds (saveResA_holds h a) b, rfl⟩

theorem withdraw_same (h : Holds σ p) (sender : Addr) (x mA mB : Int) (dl : Option Nat) :
    Same (fun (a : Store × Ledger × Int × Int) b => Holds a.1 b.1 ∧ a.2 = b.2) (withdraw me c σ L sender x mA mB dl)
      (Phoenix.Stable.withdraw me c p L sender x mA mB dl) := by
  unfold withdraw Phoenix.Stable.withdraw
  simp only [getConfig_eq h, getResA_eq h, getResB_eq h, getTotal_eq h, ok_bind']
  refine Same.bind_same fun _ _ => Same.bind_same fun _ _ => Same.bind_same fun _ _ => Same.bind_same fun _ _ =>
    Same.bind_same fun _ _ => Same.bind_same fun L1 _ => Same.bind_same fun _ _ => Same.bind_same fun _ _ =>
    Same.bind_same fun _ _ => Same.bind_same fun _ _ => Same.bind_same fun _ _ => ?_
  refine Same.bind (burnShares_same h x) ?_
  rintro ⟨σ1, L2⟩ ⟨p1, L2'⟩ ⟨h1, hl⟩
  subst hl
  refine Same.bind_same fun L3 _ => Same.bind_same fun L4 _ => Same.bind_same fun a _ => Same.bind_same fun b _ => ?_
  exact ⟨saveResB_holds (saveResA_holds h1 a) b, rfl⟩

theorem updateConfig_same (h : Holds σ p) (sender : Addr) (u : Phoenix.Stable.ConfigUpdate) :
    Same Holds (updateConfig σ sender u) (Phoenix.Stable.updateConfig p sender u) := by
  unfold updateConfig Phoenix.Stable.updateConfig
  simp only [getConfig_eq h, getAdmin_eq h, ok_bind']
  refine Same.bind_same fun _ _ => Same.bind_same fun _ _ => Same.bind_same fun _ _ => Same.bind_same fun _ _ => ?_
  have h1 : Holds (putAdmin σ u.newAdmin) { p with admin := u.newAdmin.getD p.admin } := by
    cases u.newAdmin with
    | none => exact h
    | some a => exact saveAdmin_holds h a
  exact saveConfig_holds h1 _ _ _ _

theorem maxOf (a b : Nat) : (if b < a then a else b) = max a b := by
  rcases Nat.lt_or_ge b a with h | h
  · rw [if_pos h, Nat.max_eq_left (by omega)]
  · rw [if_neg (by omega), Nat.max_eq_right h]

theorem init_same {o : Option Phoenix.Stable.State} (h : Stores σ o) (i : Phoenix.Stable.InitArgs) :
    Same R2 (init me c σ L i) (Phoenix.Stable.init me c o L i) := by
  cases o with
  | some p =>
    have hi : isInit σ = .ok true := isInit_eq h
    unfold init Phoenix.Stable.init
    rw [hi]
    exact rfl
  | none =>
    have hi : isInit σ = .ok false := loadOr_none (h _ _)
    have hmp : ∀ σ', getMaxPrec (savePrecs σ' L i.tokenA i.tokenB) =
        .ok (max (L i.tokenA).decimals (L i.tokenB).decimals) := by
      intro σ'
      rw [← maxOf]
      exact load_of (c := .u32 _) (by simp [savePrecs, kMaxPrec, kPrec]) rfl
    unfold init Phoenix.Stable.init
    simp only [hi, hmp, ok_bind']
    refine Same.bind (Q := fun _ _ => True) (by exact trivial) fun _ _ _ => ?_
    refine Same.bind_same fun _ _ => Same.bind_same fun _ _ => Same.bind_same fun _ _ => Same.bind_same fun _ _ =>
      Same.bind_same fun _ _ => Same.bind_same fun _ _ => Same.bind_same fun _ hlt => Same.bind_same fun t _ =>
      Same.bind_same fun _ _ => Same.bind_same fun _ _ => Same.bind_same fun _ _ => Same.bind_same fun _ _ =>
      Same.bind_same fun amp _ => ?_
    have hlt' : i.tokenA < i.tokenB := req_ok.mp hlt
    have hne : i.tokenA ≠ i.tokenB := Nat.ne_of_lt hlt'
    have hb : ∀ d k, get σ d k = none := h
    refine ⟨⟨?_, ?_, ?_, ?_, ?_, ?_, ?_, ?_, ?_, ?_, ?_⟩, rfl⟩
    all_goals first
      | (simp [saveConfig, saveAdmin, saveTotal, saveResA, saveResB, setInit, saveAmp, savePrecs, kTotal, kResA, kResB,
          kAdmin, kConfig, kInit, kAmp, kMaxPrec, kPrec, hne, maxOf]; done)
      | skip
    have h0 : ∀ d k, get σ d k ≠ none → (d = .pers ∧ k = .u32 4) ∨
        (d = .inst ∧ k ∈ [Key.u32 0, .u32 1, .u32 2, .u32 3, .u32 5, .u32 6, .sym "CONFIG",
          .cons (.u32 7) (.cons (.addr i.tokenA) .nil), .cons (.u32 7) (.cons (.addr i.tokenB) .nil)]) :=
      fun d k hk => absurd (hb d k) hk
    refine every_set (every_set (every_set (every_set (every_set (every_set (every_set (every_set (every_set
      (every_set h0 _ ?_) _ ?_) _ ?_) _ ?_) _ ?_) _ ?_) _ ?_) _ ?_) _ ?_) _ ?_
    all_goals simp [kTotal, kResA, kResB, kAdmin, kConfig, kInit, kAmp, kMaxPrec, kPrec]

theorem stable_call (h : Holds σ p) (L : Ledger) (t : Phoenix.Stable.Tx) :
    Same (fun (a : Store × Ledger) (s : Phoenix.Stable.Sys) => Stores a.1 s.pool ∧ a.2 = s.led)
      (step me (σ, L) t) (Phoenix.Stable.step me ⟨some p, L⟩ t) := by
  cases t with
  | token c tok op =>
    simp only [step, Phoenix.Stable.step]
    exact Same.bind_same fun L' _ => ⟨h, rfl⟩
  | pool c k =>
    cases k with
    | init i =>
      have := init_same (me := me) (c := c) (L := L) (o := some p) h i
      simp only [step, Phoenix.Stable.step]
      rw [← bind_pure (init me c σ L i)]
      refine Same.bind this ?_
      rintro ⟨σ', L'⟩ ⟨p', L''⟩ ⟨h1, h2⟩
      exact ⟨h1, h2⟩
    | provide sender a b cu dl ms =>
      simp only [step, Phoenix.Stable.step, Phoenix.Stable.loaded, ok_bind']
      rw [← bind_pure (provide me c σ L sender a b cu dl ms)]
      refine Same.bind (provide_same h sender a b cu dl ms) ?_
      rintro ⟨σ', L'⟩ ⟨p', L''⟩ ⟨h1, h2⟩
      exact ⟨h1, h2⟩
    | swap sender offer x mo ms dl mf =>
      simp only [step, Phoenix.Stable.step, Phoenix.Stable.loaded, ok_bind']
      refine Same.bind (swap_same h sender offer x mo ms dl mf) ?_
      rintro ⟨σ', L', r⟩ ⟨p', L'', r'⟩ ⟨h1, h2⟩
      simp only [Prod.mk.injEq] at h2
      exact ⟨h1, h2.1⟩
    | withdraw sender x mA mB dl =>
      simp only [step, Phoenix.Stable.step, Phoenix.Stable.loaded, ok_bind']
      refine Same.bind (withdraw_same h sender x mA mB dl) ?_
      rintro ⟨σ', L', r⟩ ⟨p', L'', r'⟩ ⟨h1, h2⟩
      simp only [Prod.mk.injEq] at h2
      exact ⟨h1, h2.1⟩
    | updateConfig sender u =>
      simp only [step, Phoenix.Stable.step, Phoenix.Stable.loaded, ok_bind']
      exact Same.bind (updateConfig_same h sender u) fun _ _ h1 => ⟨h1, rfl⟩

/-! A pool that was never initialised answers no call. -/

theorem getConfig_blank (h : Blank σ) : getConfig σ = .error .panic := load_none (h _ _)
theorem getAdmin_blank (h : Blank σ) : getAdmin σ = .error .panic := load_none (h _ _)

theorem provide_blank (h : Blank σ) {sender : Addr} {a b : Int} {cu : Option Int} {dl ms : Option Nat} (r : Store × Ledger) :
    provide me c σ L sender a b cu dl ms ≠ .ok r := by
  intro hr
  unfold provide at hr
  obtain ⟨_, _, hr⟩ := bind_ok.mp hr
  obtain ⟨_, _, hr⟩ := bind_ok.mp hr
  obtain ⟨_, _, hr⟩ := bind_ok.mp hr
  obtain ⟨_, _, hr⟩ := bind_ok.mp hr
  obtain ⟨_, hg, hr⟩ := bind_ok.mp hr
  rw [getConfig_blank h] at hg; cases hg

theorem swap_blank (h : Blank σ) {sender offer : Addr} {x : Int} {mo ms : Option Int} {dl : Option Nat}
    {mf : Option Int} (r : Store × Ledger × Int) : swap me c σ L sender offer x mo ms dl mf ≠ .ok r := by
  intro hr
  unfold swap at hr
  obtain ⟨_, _, hr⟩ := bind_ok.mp hr
  obtain ⟨_, _, hr⟩ := bind_ok.mp hr
  obtain ⟨_, _, hr⟩ := bind_ok.mp hr
  obtain ⟨_, hg, hr⟩ := bind_ok.mp hr
  rw [getConfig_blank h] at hg; cases hg

theorem withdraw_blank (h : Blank σ) {sender : Addr} {x mA mB : Int} {dl : Option Nat}
    (r : Store × Ledger × Int × Int) : withdraw me c σ L sender x mA mB dl ≠ .ok r := by
  intro hr
  unfold withdraw at hr
  obtain ⟨_, _, hr⟩ := bind_ok.mp hr
  obtain ⟨_, _, hr⟩ := bind_ok.mp hr
  obtain ⟨_, _, hr⟩ := bind_ok.mp hr
  obtain ⟨_, _, hr⟩ := bind_ok.mp hr
  obtain ⟨_, _, hr⟩ := bind_ok.mp hr
  obtain ⟨_, hg, hr⟩ := bind_ok.mp hr
  rw [getConfig_blank h] at hg; cases hg

/-- One transaction, before or after `initialize`. -/
theorem step_alike {o : Option Phoenix.Stable.State} (h : Stores σ o) (L : Ledger) (t : Phoenix.Stable.Tx) :
    Alike (fun (a : Store × Ledger) (s : Phoenix.Stable.Sys) => Stores a.1 s.pool ∧ a.2 = s.led)
      (step me (σ, L) t) (Phoenix.Stable.step me ⟨o, L⟩ t) := by
  cases o with
  | some p => exact (stable_call h L t).alike
  | none =>
    cases t with
    | token c tok op =>
      simp only [step, Phoenix.Stable.step]
      refine Same.alike (Same.bind_same fun L' _ => ?_)
      exact ⟨h, rfl⟩
    | pool c k =>
      cases k with
      | init i =>
        simp only [step, Phoenix.Stable.step]
        rw [← bind_pure (init me c σ L i)]
        refine (Same.bind (init_same (me := me) (c := c) (L := L) (o := none) h i) ?_).alike
        rintro ⟨σ', L'⟩ ⟨p', L''⟩ ⟨h1, h2⟩
        exact ⟨h1, h2⟩
      | provide sender a b cu dl ms =>
        refine Alike.errors (fun r hr => ?_) (fun r hr => by simp [Phoenix.Stable.step, Phoenix.Stable.loaded, Bind.bind, Except.bind] at hr)
        exact provide_blank h r hr
      | swap sender offer x mo ms dl mf =>
        refine Alike.errors (fun r hr => ?_) (fun r hr => by simp [Phoenix.Stable.step, Phoenix.Stable.loaded, Bind.bind, Except.bind] at hr)
        obtain ⟨q, hq, _⟩ := bind_ok.mp hr
        exact swap_blank h q hq
      | withdraw sender x mA mB dl =>
        refine Alike.errors (fun r hr => ?_) (fun r hr => by simp [Phoenix.Stable.step, Phoenix.Stable.loaded, Bind.bind, Except.bind] at hr)
        obtain ⟨q, hq, _⟩ := bind_ok.mp hr
        exact withdraw_blank h q hq
      | updateConfig sender u =>
        refine Alike.errors (fun r hr => ?_) (fun r hr => by simp [Phoenix.Stable.step, Phoenix.Stable.loaded, Bind.bind, Except.bind] at hr)
        simp [step, updateConfig, getAdmin_blank h, Bind.bind, Except.bind] at hr

theorem run_stores (ts : List Phoenix.Stable.Tx) {o : Option Phoenix.Stable.State} (h : Stores σ o) (L : Ledger) :
    Stores (run me (σ, L) ts).1 (Phoenix.Stable.run me ⟨o, L⟩ ts).pool ∧
      (run me (σ, L) ts).2 = (Phoenix.Stable.run me ⟨o, L⟩ ts).led := by
  induction ts generalizing σ o L with
  | nil => exact ⟨h, rfl⟩
  | cons t ts ih =>
    have hs := step_alike (me := me) h L t
    have e1 : run me (σ, L) (t :: ts) = run me (exec me (σ, L) t) ts := rfl
    have e2 : Phoenix.Stable.run me ⟨o, L⟩ (t :: ts) = Phoenix.Stable.run me (Phoenix.Stable.exec me ⟨o, L⟩ t) ts := rfl
    rw [e1, e2]
    unfold exec Phoenix.Stable.exec
    cases h1 : step me (σ, L) t with
    | error e =>
      cases h2 : Phoenix.Stable.step me ⟨o, L⟩ t with
      | error e' => exact ih h L
      | ok s => rw [h1, h2] at hs; exact hs.elim
    | ok a =>
      cases h2 : Phoenix.Stable.step me ⟨o, L⟩ t with
      | error e' => rw [h1, h2] at hs; exact hs.elim
      | ok s =>
        rw [h1, h2] at hs
        obtain ⟨σ', L'⟩ := a
        obtain ⟨o', L''⟩ := s
        obtain ⟨hh, hl⟩ := hs
        simp only at hl hh
        subst hl
        exact ih hh L'

end Phoenix.Store.Stable

namespace Phoenix.Props
open Phoenix Phoenix.Store Phoenix.Store.Stable

/-- C120: every call of an initialised pool, made against the key-value store of its source, has
the outcome of the record model: the same result or the same failure, the same tokens, and a
store that again holds exactly the new record. -/
theorem C120_stable_call {me : Addr} {σ : Store} {p : Phoenix.Stable.State} (h : Holds σ p) (L : Ledger)
    (t : Phoenix.Stable.Tx) :
    Same (fun (a : Store × Ledger) (s : Phoenix.Stable.Sys) => Stores a.1 s.pool ∧ a.2 = s.led)
      (Store.Stable.step me (σ, L) t) (Phoenix.Stable.step me ⟨some p, L⟩ t) := stable_call h L t

/-- C120: over any history, starting with an empty store, the pool's store holds exactly the record
of the model (nothing before `initialize`), and the tokens are the same. -/
theorem C120_stable_history (me : Addr) (L : Ledger) (ts : List Phoenix.Stable.Tx) :
    Stores (Store.Stable.run me ([], L) ts).1 (Phoenix.Stable.run me ⟨none, L⟩ ts).pool ∧
      (Store.Stable.run me ([], L) ts).2 = (Phoenix.Stable.run me ⟨none, L⟩ ts).led :=
  run_stores (o := none) ts blank_nil L

/-! The history of Props/StableSwap, run on a store: initialisation, a deposit and a swap. -/
example : (Phoenix.Stable.run 100 (Props.Stable.exStart 7 7)
      (Props.Stable.exHist 100 20000000 20000000 ++ [Props.Stable.exSwap 10 1000])).pool.map (·.resA) = some 20001000 ∧
    Store.Stable.getResA (Store.Stable.run 100 ([], (Props.Stable.exStart 7 7).led)
      (Props.Stable.exHist 100 20000000 20000000 ++ [Props.Stable.exSwap 10 1000])).1 = .ok 20001000 := by decide +kernel
example : ∃ p, Holds (Store.Stable.run 100 ([], (Props.Stable.exStart 7 7).led)
    (Props.Stable.exHist 100 20000000 20000000)).1 p ∧ p.resA = 20000000 := by
  have h := (C120_stable_history 100 (Props.Stable.exStart 7 7).led (Props.Stable.exHist 100 20000000 20000000)).1
  have e : (Phoenix.Stable.run 100 (Props.Stable.exStart 7 7) (Props.Stable.exHist 100 20000000 20000000)).pool.map (·.resA) =
    some 20000000 := by decide +kernel
  obtain ⟨p, hp, ht⟩ := Option.map_eq_some_iff.mp e
  have hp' : (Phoenix.Stable.run 100 ⟨none, (Props.Stable.exStart 7 7).led⟩
    (Props.Stable.exHist 100 20000000 20000000)).pool = some p := hp
  rw [hp'] at h
  exact ⟨p, h, ht⟩

end Phoenix.Props
