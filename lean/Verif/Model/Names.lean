import Verif.Model.Queries
/-!
The texts that contracts carry: name and symbol of tokens, the name of a trader, and what a vesting contract says about its token.  The
rest of the model has no texts; here they are kept beside the state of the whole protocol.
-/
namespace Phoenix.World
open Phoenix

/-- The two texts of `TokenMetadata`, contracts/token/src/contract.rs:26-39, contracts/token/src/metadata.rs:4-22 (the third field,
`decimal`, is `Token.decimals`). -/
structure Label where
  name : String
  symbol : String
deriving DecidableEq

/-- `VestingTokenInfo` without the address, contracts/vesting/src/storage.rs:30-37. -/
structure TokenInfo where
  label : Label
  decimals : Nat
deriving DecidableEq

/-- The texts in storage: of the tokens (contracts/token/src/metadata.rs:4-22), of the traders (`DataKey::ContractId`,
contracts/trader/src/storage.rs:81-107) and of the vesting contracts (`DataKey::VestingTokenInfo`,
contracts/vesting/src/storage.rs:207-233). -/
structure Names where
  token : Addr → Label
  trader : Addr → String
  vest : Addr → TokenInfo

/-- The texts among the arguments of a call: `share_token_name` and `share_token_symbol` of `create_liquidity_pool`
(contracts/factory/src/contract.rs:141-155) and of `initialize` of a pool (contracts/pool/src/contract.rs:151-162,
contracts/pool_stable/src/contract.rs:146-157), `contract_name` of `initialize` of a trader
(contracts/trader/src/contract.rs:68-74), and name, symbol and decimals in `vesting_token` of `initialize` of a vesting contract
(contracts/vesting/src/contract.rs:84-89).  Each call reads only those that it has. -/
structure Texts where
  label : Label
  contractName : String
  decimals : Nat

/-- The pool deploys its share token with the given texts, contracts/pool/src/storage.rs:188-205,
contracts/pool_stable/src/storage.rs:223-240. -/
def Names.share (n : Names) (h : Host) (P a b : Addr) (t : Texts) : Names :=
  { n with token := upd n.token (h.shareAddr P a b) t.label }

/-- One transaction with its texts.  Texts are stored by `create_liquidity_pool` (contracts/factory/src/contract.rs:141-235), by
`initialize` of a pool (contracts/pool/src/contract.rs:217-227, contracts/pool_stable/src/contract.rs:214-224), by `initialize` of a
trader (contracts/trader/src/contract.rs:84) and by `initialize` of a vesting contract (contracts/vesting/src/contract.rs:102-109,
137-144); no other entry point stores any. -/
def stepN (h : Host) (w : World) (n : Names) (c : Ctx) (t : Texts) : Call → Res (World × Names)
  | .create F sender i k amp sl mf => do
    expect w F .factory
    let (w', P) ← create h w c F sender i k amp sl mf
    .ok (w', n.share h P i.tokenA i.tokenB t)
  | .xykInit P i owner dec sl mf => do
    let w' ← step h w c (.xykInit P i owner dec sl mf)
    .ok (w', n.share h P i.tokenA i.tokenB t)
  | .stableInit P i owner amp mf => do
    let w' ← step h w c (.stableInit P i owner amp mf)
    .ok (w', n.share h P i.tokenA i.tokenB t)
  | .trdInit T admin a b o => do
    let w' ← step h w c (.trdInit T admin a b o)
    .ok (w', { n with trader := upd n.trader T t.contractName })
  | .vest V (.init admin token max minter) => do
    let w' ← step h w c (.vest V (.init admin token max minter))
    .ok (w', { n with vest := upd n.vest V ⟨t.label, t.decimals⟩ })
  | k => do
    let w' ← step h w c k
    .ok (w', n)

/-- A transaction with its texts (modelling device, nothing of /repo). -/
structure TxN where
  tx : Tx
  texts : Texts

/-- A failed transaction is rolled back (modelling device, nothing of /repo). -/
def execN (h : Host) (s : World × Names) (t : TxN) : World × Names :=
  match stepN h s.1 s.2 t.tx.ctx t.texts t.tx.call with
  | .ok s' => s'
  | .error _ => s

/-- State and texts after a history (modelling device, nothing of /repo). -/
def runN (h : Host) (s : World × Names) (ts : List TxN) : World × Names := ts.foldl (execN h) s

/-- `name` of the token at `tok`, contracts/token/src/contract.rs:164-166. -/
def tokenName (w : World) (n : Names) (tok : Addr) : Res String := do
  expect w tok .token
  .ok (n.token tok).name

/-- `symbol` of the token at `tok`, contracts/token/src/contract.rs:168-170. -/
def tokenSymbol (w : World) (n : Names) (tok : Addr) : Res String := do
  expect w tok .token
  .ok (n.token tok).symbol

/-- `decimals` of the token at `tok`, contracts/token/src/contract.rs:160-162. -/
def tokenDecimals (w : World) (tok : Addr) : Res Nat := do
  expect w tok .token
  .ok (w.led tok).decimals

/-- `query_contract_name` of a trader, contracts/trader/src/contract.rs:249-254. -/
def queryContractName (w : World) (n : Names) (T : Addr) : Res String := do
  let _ ← traderAt w T
  .ok (n.trader T)

/-- One `Asset` of a trader's balances, contracts/trader/src/contract.rs:213-219. -/
def assetOf (w : World) (n : Names) (tok T : Addr) : Res (String × Int) := do
  let b ← tokenBalance w tok T
  let s ← tokenSymbol w n tok
  .ok (s, b)

/-- `query_balances` of a trader with the symbols it answers: output token, first and second token of the pair,
contracts/trader/src/contract.rs:201-233. -/
def queryBalancesN (w : World) (n : Names) (T : Addr) : Res (List (String × Int)) := do
  let t ← traderAt w T
  let o ← assetOf w n t.output T
  let a ← assetOf w n t.tokenA T
  let b ← assetOf w n t.tokenB T
  .ok [o, a, b]

/-- `query_output_token_info` of a trader: address, name, symbol, decimals, contracts/trader/src/contract.rs:256-269. -/
def queryOutputTokenN (w : World) (n : Names) (T : Addr) : Res (Addr × Label × Nat) := do
  let t ← traderAt w T
  let name ← tokenName w n t.output
  let symbol ← tokenSymbol w n t.output
  let dec ← tokenDecimals w t.output
  .ok (t.output, ⟨name, symbol⟩, dec)

/-- `query_token_info` of a vesting contract: address, name, symbol, decimals, contracts/vesting/src/contract.rs:433-438. -/
def queryTokenInfo (w : World) (n : Names) (V : Addr) : Res (Addr × TokenInfo) := do
  expect w V .vesting
  let v ← Vesting.loaded (w.vest V)
  .ok (v.token, n.vest V)

/-- The answer to a quote as the router gives it: every commission goes with a symbol, contracts/multihop/src/storage.rs:39-55. -/
structure QuoteN where
  amount : Int
  commissions : List (String × Int)
  spreads : List Int
deriving DecidableEq

/-- The loop of the router's `simulate_swap` with the symbols, contracts/multihop/src/contract.rs:170-214: each commission is labelled
with the symbol of the asset that the operation offers. -/
def simLoopN (w : World) (n : Names) (now : Nat) (F : Addr) : List Multihop.Op → Int → QuoteN → Res QuoteN
  | [], _, q => .ok q
  | op :: ops, x, q => do
    let P ← findPool w F op.offer op.ask
    let (a, com, spread) ← poolSimulate w now P op.offer x
    let s ← tokenSymbol w n op.offer
    simLoopN w n now F ops a ⟨a, q.commissions ++ [(s, com)], q.spreads ++ [spread]⟩

/-- `simulate_swap` of the router at `H`, contracts/multihop/src/contract.rs:145-215. -/
def hopSimulateN (w : World) (n : Names) (now : Nat) (H : Addr) (ops : List Multihop.Op) (amount : Int) : Res QuoteN := do
  req (¬ ops = []) (.code 2)
  Multihop.verifySwap ops
  let m ← Multihop.loaded (w.hop H)
  simLoopN w n now m.factory ops amount ⟨0, [], []⟩

/-- The loop of the router's `simulate_reverse_swap` with the symbols, contracts/multihop/src/contract.rs:242-286: each commission is
labelled with the symbol of the asset that the operation asks for. -/
def revLoopN (w : World) (n : Names) (now : Nat) (F : Addr) : List Multihop.Op → Int → QuoteN → Res QuoteN
  | [], _, q => .ok q
  | op :: ops, x, q => do
    let P ← findPool w F op.offer op.ask
    let (a, com, spread) ← poolSimulateReverse w now P op.ask x
    let s ← tokenSymbol w n op.ask
    revLoopN w n now F ops a ⟨a, q.commissions ++ [(s, com)], q.spreads ++ [spread]⟩

/-- `simulate_reverse_swap` of the router at `H`, contracts/multihop/src/contract.rs:217-287. -/
def hopSimulateReverseN (w : World) (n : Names) (now : Nat) (H : Addr) (ops : List Multihop.Op) (amount : Int) : Res QuoteN := do
  req (¬ ops = []) (.code 2)
  Multihop.verifyReverseSwap ops
  let m ← Multihop.loaded (w.hop H)
  revLoopN w n now m.factory ops amount ⟨0, [], []⟩

end Phoenix.World
