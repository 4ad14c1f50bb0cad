import Verif.Model.Position

/-!
# Model of `market/asset.go`, `market/asset_helpers.go` and `market/pair.go`
-/

namespace Finmod
open Go

/-- The zero `Asset{}`. -/
def zeroAsset : Asset := ⟨"", "", ""⟩

/-- market/asset.go:21-31 `NewAsset`. -/
def newAsset (symbol name : String) : Res Asset :=
  if symbol = "" then .err .einvalid zeroAsset
  else if name = "" then .err .einvalid zeroAsset
  else .ok ⟨name, symbol, ""⟩

/-- The cases of `NewCryptoAsset`, in source order: symbol, name. market/asset_helpers.go:5-78 -/
def newCryptoAssetTable : List (String × String) := [
  ("AAVE", "Aave"),
  ("ALGO", "Algorand"),
  ("BAT", "Basic Attention Token"),
  ("BTC", "Bitcoin"),
  ("BCH", "Bitcoin Cash"),
  ("ADA", "Cardano"),
  ("LINK", "Chainlink"),
  ("COMP", "Compound"),
  ("ATOM", "Cosmos"),
  ("DAI", "DAI"),
  ("DASH", "Dash"),
  ("DOGE", "Dogecoin"),
  ("EOS", "EOS.IO"),
  ("ETH", "Ethereum"),
  ("ETC", "Ethereum Classic"),
  ("EWT", "Energy Web Token"),
  ("EWTB", "Energy Web Token Bridged"),
  ("FILE", "Filecoin"),
  ("FLOW", "Flow"),
  ("LTC", "Litecoin"),
  ("XLM", "Lumen"),
  ("XMR", "Monero"),
  ("NANO", "Nano"),
  ("MATIC", "Polygon"),
  ("QTUM", "Qtum"),
  ("OCEAN", "Ocean Token"),
  ("DOT", "Polkadot"),
  ("USDT", "Tether USD"),
  ("GRT", "The Graph"),
  ("UNI", "Uniswap"),
  ("USDC", "USD Coin"),
  ("XRP", "Ripple"),
  ("ZED", "ZCash")]

/-- market/asset_helpers.go:5-78 `NewCryptoAsset`: a switch over the table. -/
def newCryptoAsset (symbol : String) : Res Asset :=
  match newCryptoAssetTable.find? (fun e => e.1 = symbol) with
  | some e => newAsset symbol e.2
  | none => .err .enotfound zeroAsset

/-- The cases of `NewForexAsset`, in source order: symbol, name. market/asset_helpers.go:80-92 -/
def newForexAssetTable : List (String × String) := [
  ("USD", "United States Dollar"),
  ("EUR", "Euro")]

/-- market/asset_helpers.go:80-92 `NewForexAsset`: a switch over the table. -/
def newForexAsset (symbol : String) : Res Asset :=
  match newForexAssetTable.find? (fun e => e.1 = symbol) with
  | some e => newAsset symbol e.2
  | none => .err .enotfound zeroAsset

/-- The cases of `NewStockAsset`, in source order: symbol, name. market/asset_helpers.go:94-104 -/
def newStockAssetTable : List (String × String) := [
  ("AAPL", "Apple Inc")]

/-- market/asset_helpers.go:94-104 `NewStockAsset`: a switch over the table. -/
def newStockAsset (symbol : String) : Res Asset :=
  match newStockAssetTable.find? (fun e => e.1 = symbol) with
  | some e => newAsset symbol e.2
  | none => .err .enotfound zeroAsset

/-- market/pair.go:14-16 `NewPair`. -/
def newPair (base quote : Asset) : Pair := ⟨base, quote⟩

/-- market/pair.go:24-30 `Symbol`. -/
def Pair.symbolWith (p : Pair) (separator : String) : String :=
  if p.quote.symbol = "" then p.base.symbol
  else p.base.symbol ++ separator ++ p.quote.symbol

end Finmod
