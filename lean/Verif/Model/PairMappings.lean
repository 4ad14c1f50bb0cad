import Verif.Model.Position

/-!
# Model of `market/pair_mappings.go`

Generated by `tools/gen_pairs.py`, one entry per source line 4-1954, in source order:
key, base symbol, quote symbol. All other fields of the assets are empty.
-/

namespace Finmod

/-- market/pair_mappings.go:4-203 -/
def pairTable0 : List (String × String × String) := [
  ("ETHBTC", "ETH", "BTC"), ("LTCBTC", "LTC", "BTC"), ("BNBBTC", "BNB", "BTC"),
  ("NEOBTC", "NEO", "BTC"), ("QTUMETH", "QTUM", "ETH"), ("EOSETH", "EOS", "ETH"),
  ("SNTETH", "SNT", "ETH"), ("BNTETH", "BNT", "ETH"), ("BCCBTC", "BCC", "BTC"),
  ("GASBTC", "GAS", "BTC"), ("BNBETH", "BNB", "ETH"), ("BTCUSDT", "BTC", "USDT"),
  ("ETHUSDT", "ETH", "USDT"), ("HSRBTC", "HSR", "BTC"), ("OAXETH", "OAX", "ETH"),
  ("DNTETH", "DNT", "ETH"), ("MCOETH", "MCO", "ETH"), ("ICNETH", "ICN", "ETH"),
  ("MCOBTC", "MCO", "BTC"), ("WTCBTC", "WTC", "BTC"), ("WTCETH", "WTC", "ETH"),
  ("LRCBTC", "LRC", "BTC"), ("LRCETH", "LRC", "ETH"), ("QTUMBTC", "QTUM", "BTC"),
  ("YOYOBTC", "YOYO", "BTC"), ("OMGBTC", "OMG", "BTC"), ("OMGETH", "OMG", "ETH"),
  ("ZRXBTC", "ZRX", "BTC"), ("ZRXETH", "ZRX", "ETH"), ("STRATBTC", "STRAT", "BTC"),
  ("STRATETH", "STRAT", "ETH"), ("SNGLSBTC", "SNGLS", "BTC"), ("SNGLSETH", "SNGLS", "ETH"),
  ("BQXBTC", "BQX", "BTC"), ("BQXETH", "BQX", "ETH"), ("KNCBTC", "KNC", "BTC"),
  ("KNCETH", "KNC", "ETH"), ("FUNBTC", "FUN", "BTC"), ("FUNETH", "FUN", "ETH"),
  ("SNMBTC", "SNM", "BTC"), ("SNMETH", "SNM", "ETH"), ("NEOETH", "NEO", "ETH"),
  ("IOTABTC", "IOTA", "BTC"), ("IOTAETH", "IOTA", "ETH"), ("LINKBTC", "LINK", "BTC"),
  ("LINKETH", "LINK", "ETH"), ("XVGBTC", "XVG", "BTC"), ("XVGETH", "XVG", "ETH"),
  ("SALTBTC", "SALT", "BTC"), ("SALTETH", "SALT", "ETH"), ("MDABTC", "MDA", "BTC"),
  ("MDAETH", "MDA", "ETH"), ("MTLBTC", "MTL", "BTC"), ("MTLETH", "MTL", "ETH"),
  ("SUBBTC", "SUB", "BTC"), ("SUBETH", "SUB", "ETH"), ("EOSBTC", "EOS", "BTC"),
  ("SNTBTC", "SNT", "BTC"), ("ETCETH", "ETC", "ETH"), ("ETCBTC", "ETC", "BTC"),
  ("MTHBTC", "MTH", "BTC"), ("MTHETH", "MTH", "ETH"), ("ENGBTC", "ENG", "BTC"),
  ("ENGETH", "ENG", "ETH"), ("DNTBTC", "DNT", "BTC"), ("ZECBTC", "ZEC", "BTC"),
  ("ZECETH", "ZEC", "ETH"), ("BNTBTC", "BNT", "BTC"), ("ASTBTC", "AST", "BTC"),
  ("ASTETH", "AST", "ETH"), ("DASHBTC", "DASH", "BTC"), ("DASHETH", "DASH", "ETH"),
  ("OAXBTC", "OAX", "BTC"), ("ICNBTC", "ICN", "BTC"), ("BTGBTC", "BTG", "BTC"),
  ("BTGETH", "BTG", "ETH"), ("EVXBTC", "EVX", "BTC"), ("EVXETH", "EVX", "ETH"),
  ("REQBTC", "REQ", "BTC"), ("REQETH", "REQ", "ETH"), ("VIBBTC", "VIB", "BTC"),
  ("VIBETH", "VIB", "ETH"), ("HSRETH", "HSR", "ETH"), ("TRXBTC", "TRX", "BTC"),
  ("TRXETH", "TRX", "ETH"), ("POWRBTC", "POWR", "BTC"), ("POWRETH", "POWR", "ETH"),
  ("ARKBTC", "ARK", "BTC"), ("ARKETH", "ARK", "ETH"), ("YOYOETH", "YOYO", "ETH"),
  ("XRPBTC", "XRP", "BTC"), ("XRPETH", "XRP", "ETH"), ("MODBTC", "MOD", "BTC"),
  ("MODETH", "MOD", "ETH"), ("ENJBTC", "ENJ", "BTC"), ("ENJETH", "ENJ", "ETH"),
  ("STORJBTC", "STORJ", "BTC"), ("STORJETH", "STORJ", "ETH"), ("BNBUSDT", "BNB", "USDT"),
  ("VENBNB", "VEN", "BNB"), ("YOYOBNB", "YOYO", "BNB"), ("POWRBNB", "POWR", "BNB"),
  ("VENBTC", "VEN", "BTC"), ("VENETH", "VEN", "ETH"), ("KMDBTC", "KMD", "BTC"),
  ("KMDETH", "KMD", "ETH"), ("NULSBNB", "NULS", "BNB"), ("RCNBTC", "RCN", "BTC"),
  ("RCNETH", "RCN", "ETH"), ("RCNBNB", "RCN", "BNB"), ("NULSBTC", "NULS", "BTC"),
  ("NULSETH", "NULS", "ETH"), ("RDNBTC", "RDN", "BTC"), ("RDNETH", "RDN", "ETH"),
  ("RDNBNB", "RDN", "BNB"), ("XMRBTC", "XMR", "BTC"), ("XMRETH", "XMR", "ETH"),
  ("DLTBNB", "DLT", "BNB"), ("WTCBNB", "WTC", "BNB"), ("DLTBTC", "DLT", "BTC"),
  ("DLTETH", "DLT", "ETH"), ("AMBBTC", "AMB", "BTC"), ("AMBETH", "AMB", "ETH"),
  ("AMBBNB", "AMB", "BNB"), ("BCCETH", "BCC", "ETH"), ("BCCUSDT", "BCC", "USDT"),
  ("BCCBNB", "BCC", "BNB"), ("BATBTC", "BAT", "BTC"), ("BATETH", "BAT", "ETH"),
  ("BATBNB", "BAT", "BNB"), ("BCPTBTC", "BCPT", "BTC"), ("BCPTETH", "BCPT", "ETH"),
  ("BCPTBNB", "BCPT", "BNB"), ("ARNBTC", "ARN", "BTC"), ("ARNETH", "ARN", "ETH"),
  ("GVTBTC", "GVT", "BTC"), ("GVTETH", "GVT", "ETH"), ("CDTBTC", "CDT", "BTC"),
  ("CDTETH", "CDT", "ETH"), ("GXSBTC", "GXS", "BTC"), ("GXSETH", "GXS", "ETH"),
  ("NEOUSDT", "NEO", "USDT"), ("NEOBNB", "NEO", "BNB"), ("POEBTC", "POE", "BTC"),
  ("POEETH", "POE", "ETH"), ("QSPBTC", "QSP", "BTC"), ("QSPETH", "QSP", "ETH"),
  ("QSPBNB", "QSP", "BNB"), ("BTSBTC", "BTS", "BTC"), ("BTSETH", "BTS", "ETH"),
  ("BTSBNB", "BTS", "BNB"), ("XZCBTC", "XZC", "BTC"), ("XZCETH", "XZC", "ETH"),
  ("XZCBNB", "XZC", "BNB"), ("LSKBTC", "LSK", "BTC"), ("LSKETH", "LSK", "ETH"),
  ("LSKBNB", "LSK", "BNB"), ("TNTBTC", "TNT", "BTC"), ("TNTETH", "TNT", "ETH"),
  ("FUELBTC", "FUEL", "BTC"), ("FUELETH", "FUEL", "ETH"), ("MANABTC", "MANA", "BTC"),
  ("MANAETH", "MANA", "ETH"), ("BCDBTC", "BCD", "BTC"), ("BCDETH", "BCD", "ETH"),
  ("DGDBTC", "DGD", "BTC"), ("DGDETH", "DGD", "ETH"), ("IOTABNB", "IOTA", "BNB"),
  ("ADXBTC", "ADX", "BTC"), ("ADXETH", "ADX", "ETH"), ("ADXBNB", "ADX", "BNB"),
  ("ADABTC", "ADA", "BTC"), ("ADAETH", "ADA", "ETH"), ("PPTBTC", "PPT", "BTC"),
  ("PPTETH", "PPT", "ETH"), ("CMTBTC", "CMT", "BTC"), ("CMTETH", "CMT", "ETH"),
  ("CMTBNB", "CMT", "BNB"), ("XLMBTC", "XLM", "BTC"), ("XLMETH", "XLM", "ETH"),
  ("XLMBNB", "XLM", "BNB"), ("CNDBTC", "CND", "BTC"), ("CNDETH", "CND", "ETH"),
  ("CNDBNB", "CND", "BNB"), ("LENDBTC", "LEND", "BTC"), ("LENDETH", "LEND", "ETH"),
  ("WABIBTC", "WABI", "BTC"), ("WABIETH", "WABI", "ETH"), ("WABIBNB", "WABI", "BNB"),
  ("LTCETH", "LTC", "ETH"), ("LTCUSDT", "LTC", "USDT"), ("LTCBNB", "LTC", "BNB"),
  ("TNBBTC", "TNB", "BTC"), ("TNBETH", "TNB", "ETH"), ("WAVESBTC", "WAVES", "BTC"),
  ("WAVESETH", "WAVES", "ETH"), ("WAVESBNB", "WAVES", "BNB"), ("GTOBTC", "GTO", "BTC"),
  ("GTOETH", "GTO", "ETH"), ("GTOBNB", "GTO", "BNB")]

/-- market/pair_mappings.go:204-403 -/
def pairTable1 : List (String × String × String) := [
  ("ICXBTC", "ICX", "BTC"), ("ICXETH", "ICX", "ETH"), ("ICXBNB", "ICX", "BNB"),
  ("OSTBTC", "OST", "BTC"), ("OSTETH", "OST", "ETH"), ("OSTBNB", "OST", "BNB"),
  ("ELFBTC", "ELF", "BTC"), ("ELFETH", "ELF", "ETH"), ("AIONBTC", "AION", "BTC"),
  ("AIONETH", "AION", "ETH"), ("AIONBNB", "AION", "BNB"), ("NEBLBTC", "NEBL", "BTC"),
  ("NEBLBNB", "NEBL", "BNB"), ("BRDBTC", "BRD", "BTC"), ("BRDETH", "BRD", "ETH"),
  ("BRDBNB", "BRD", "BNB"), ("MCOBNB", "MCO", "BNB"), ("EDOBTC", "EDO", "BTC"),
  ("EDOETH", "EDO", "ETH"), ("WINGSBTC", "WINGS", "BTC"), ("WINGSETH", "WINGS", "ETH"),
  ("NAVBTC", "NAV", "BTC"), ("NAVETH", "NAV", "ETH"), ("NAVBNB", "NAV", "BNB"),
  ("LUNBTC", "LUN", "BTC"), ("LUNETH", "LUN", "ETH"), ("TRIGBTC", "TRIG", "BTC"),
  ("TRIGETH", "TRIG", "ETH"), ("TRIGBNB", "TRIG", "BNB"), ("APPCBTC", "APPC", "BTC"),
  ("APPCETH", "APPC", "ETH"), ("APPCBNB", "APPC", "BNB"), ("VIBEBTC", "VIBE", "BTC"),
  ("VIBEETH", "VIBE", "ETH"), ("RLCBTC", "RLC", "BTC"), ("RLCETH", "RLC", "ETH"),
  ("RLCBNB", "RLC", "BNB"), ("INSBTC", "INS", "BTC"), ("INSETH", "INS", "ETH"),
  ("PIVXBTC", "PIVX", "BTC"), ("PIVXBNB", "PIVX", "BNB"), ("IOSTBTC", "IOST", "BTC"),
  ("IOSTETH", "IOST", "ETH"), ("CHATBTC", "CHAT", "BTC"), ("CHATETH", "CHAT", "ETH"),
  ("STEEMBTC", "STEEM", "BTC"), ("STEEMETH", "STEEM", "ETH"), ("STEEMBNB", "STEEM", "BNB"),
  ("NANOBTC", "NANO", "BTC"), ("NANOETH", "NANO", "ETH"), ("NANOBNB", "NANO", "BNB"),
  ("VIABTC", "VIA", "BTC"), ("VIAETH", "VIA", "ETH"), ("VIABNB", "VIA", "BNB"),
  ("BLZBTC", "BLZ", "BTC"), ("BLZETH", "BLZ", "ETH"), ("BLZBNB", "BLZ", "BNB"),
  ("AEBTC", "AE", "BTC"), ("AEETH", "AE", "ETH"), ("AEBNB", "AE", "BNB"),
  ("RPXBTC", "RPX", "BTC"), ("RPXETH", "RPX", "ETH"), ("RPXBNB", "RPX", "BNB"),
  ("NCASHBTC", "NCASH", "BTC"), ("NCASHETH", "NCASH", "ETH"), ("NCASHBNB", "NCASH", "BNB"),
  ("POABTC", "POA", "BTC"), ("POAETH", "POA", "ETH"), ("POABNB", "POA", "BNB"),
  ("ZILBTC", "ZIL", "BTC"), ("ZILETH", "ZIL", "ETH"), ("ZILBNB", "ZIL", "BNB"),
  ("ONTBTC", "ONT", "BTC"), ("ONTETH", "ONT", "ETH"), ("ONTBNB", "ONT", "BNB"),
  ("STORMBTC", "STORM", "BTC"), ("STORMETH", "STORM", "ETH"), ("STORMBNB", "STORM", "BNB"),
  ("QTUMBNB", "QTUM", "BNB"), ("QTUMUSDT", "QTUM", "USDT"), ("XEMBTC", "XEM", "BTC"),
  ("XEMETH", "XEM", "ETH"), ("XEMBNB", "XEM", "BNB"), ("WANBTC", "WAN", "BTC"),
  ("WANETH", "WAN", "ETH"), ("WANBNB", "WAN", "BNB"), ("WPRBTC", "WPR", "BTC"),
  ("WPRETH", "WPR", "ETH"), ("QLCBTC", "QLC", "BTC"), ("QLCETH", "QLC", "ETH"),
  ("SYSBTC", "SYS", "BTC"), ("SYSETH", "SYS", "ETH"), ("SYSBNB", "SYS", "BNB"),
  ("QLCBNB", "QLC", "BNB"), ("GRSBTC", "GRS", "BTC"), ("GRSETH", "GRS", "ETH"),
  ("ADAUSDT", "ADA", "USDT"), ("ADABNB", "ADA", "BNB"), ("CLOAKBTC", "CLOAK", "BTC"),
  ("CLOAKETH", "CLOAK", "ETH"), ("GNTBTC", "GNT", "BTC"), ("GNTETH", "GNT", "ETH"),
  ("GNTBNB", "GNT", "BNB"), ("LOOMBTC", "LOOM", "BTC"), ("LOOMETH", "LOOM", "ETH"),
  ("LOOMBNB", "LOOM", "BNB"), ("XRPUSDT", "XRP", "USDT"), ("BCNBTC", "BCN", "BTC"),
  ("BCNETH", "BCN", "ETH"), ("BCNBNB", "BCN", "BNB"), ("REPBTC", "REP", "BTC"),
  ("REPBNB", "REP", "BNB"), ("BTCTUSD", "BTC", "TUSD"), ("TUSDBTC", "TUSD", "BTC"),
  ("ETHTUSD", "ETH", "TUSD"), ("TUSDETH", "TUSD", "ETH"), ("TUSDBNB", "TUSD", "BNB"),
  ("ZENBTC", "ZEN", "BTC"), ("ZENETH", "ZEN", "ETH"), ("ZENBNB", "ZEN", "BNB"),
  ("SKYBTC", "SKY", "BTC"), ("SKYETH", "SKY", "ETH"), ("SKYBNB", "SKY", "BNB"),
  ("EOSUSDT", "EOS", "USDT"), ("EOSBNB", "EOS", "BNB"), ("CVCBTC", "CVC", "BTC"),
  ("CVCETH", "CVC", "ETH"), ("CVCBNB", "CVC", "BNB"), ("THETABTC", "THETA", "BTC"),
  ("THETAETH", "THETA", "ETH"), ("THETABNB", "THETA", "BNB"), ("XRPBNB", "XRP", "BNB"),
  ("TUSDUSDT", "TUSD", "USDT"), ("IOTAUSDT", "IOTA", "USDT"), ("XLMUSDT", "XLM", "USDT"),
  ("IOTXBTC", "IOTX", "BTC"), ("IOTXETH", "IOTX", "ETH"), ("QKCBTC", "QKC", "BTC"),
  ("QKCETH", "QKC", "ETH"), ("AGIBTC", "AGI", "BTC"), ("AGIETH", "AGI", "ETH"),
  ("AGIBNB", "AGI", "BNB"), ("NXSBTC", "NXS", "BTC"), ("NXSETH", "NXS", "ETH"),
  ("NXSBNB", "NXS", "BNB"), ("ENJBNB", "ENJ", "BNB"), ("DATABTC", "DATA", "BTC"),
  ("DATAETH", "DATA", "ETH"), ("ONTUSDT", "ONT", "USDT"), ("TRXBNB", "TRX", "BNB"),
  ("TRXUSDT", "TRX", "USDT"), ("ETCUSDT", "ETC", "USDT"), ("ETCBNB", "ETC", "BNB"),
  ("ICXUSDT", "ICX", "USDT"), ("SCBTC", "SC", "BTC"), ("SCETH", "SC", "ETH"),
  ("NPXSBTC", "NPXS", "BTC"), ("NPXSETH", "NPXS", "ETH"), ("VENUSDT", "VEN", "USDT"),
  ("KEYBTC", "KEY", "BTC"), ("KEYETH", "KEY", "ETH"), ("NASBTC", "NAS", "BTC"),
  ("NASETH", "NAS", "ETH"), ("NASBNB", "NAS", "BNB"), ("MFTBTC", "MFT", "BTC"),
  ("MFTETH", "MFT", "ETH"), ("MFTBNB", "MFT", "BNB"), ("DENTBTC", "DENT", "BTC"),
  ("DENTETH", "DENT", "ETH"), ("ARDRBTC", "ARDR", "BTC"), ("ARDRETH", "ARDR", "ETH"),
  ("ARDRBNB", "ARDR", "BNB"), ("NULSUSDT", "NULS", "USDT"), ("HOTBTC", "HOT", "BTC"),
  ("HOTETH", "HOT", "ETH"), ("VETBTC", "VET", "BTC"), ("VETETH", "VET", "ETH"),
  ("VETUSDT", "VET", "USDT"), ("VETBNB", "VET", "BNB"), ("DOCKBTC", "DOCK", "BTC"),
  ("DOCKETH", "DOCK", "ETH"), ("POLYBTC", "POLY", "BTC"), ("POLYBNB", "POLY", "BNB"),
  ("PHXBTC", "PHX", "BTC"), ("PHXETH", "PHX", "ETH"), ("PHXBNB", "PHX", "BNB"),
  ("HCBTC", "HC", "BTC"), ("HCETH", "HC", "ETH"), ("GOBTC", "GO", "BTC"),
  ("GOBNB", "GO", "BNB"), ("PAXBTC", "PAX", "BTC"), ("PAXBNB", "PAX", "BNB"),
  ("PAXUSDT", "PAX", "USDT"), ("PAXETH", "PAX", "ETH"), ("RVNBTC", "RVN", "BTC"),
  ("DCRBTC", "DCR", "BTC"), ("DCRBNB", "DCR", "BNB"), ("USDCBNB", "USDC", "BNB"),
  ("MITHBTC", "MITH", "BTC"), ("MITHBNB", "MITH", "BNB")]

/-- market/pair_mappings.go:404-603 -/
def pairTable2 : List (String × String × String) := [
  ("BCHABCBTC", "BCHABC", "BTC"), ("BCHSVBTC", "BCHSV", "BTC"), ("BCHABCUSDT", "BCHABC", "USDT"),
  ("BCHSVUSDT", "BCHSV", "USDT"), ("BNBPAX", "BNB", "PAX"), ("BTCPAX", "BTC", "PAX"),
  ("ETHPAX", "ETH", "PAX"), ("XRPPAX", "XRP", "PAX"), ("EOSPAX", "EOS", "PAX"),
  ("XLMPAX", "XLM", "PAX"), ("RENBTC", "REN", "BTC"), ("RENBNB", "REN", "BNB"),
  ("BNBTUSD", "BNB", "TUSD"), ("XRPTUSD", "XRP", "TUSD"), ("EOSTUSD", "EOS", "TUSD"),
  ("XLMTUSD", "XLM", "TUSD"), ("BNBUSDC", "BNB", "USDC"), ("BTCUSDC", "BTC", "USDC"),
  ("ETHUSDC", "ETH", "USDC"), ("XRPUSDC", "XRP", "USDC"), ("EOSUSDC", "EOS", "USDC"),
  ("XLMUSDC", "XLM", "USDC"), ("USDCUSDT", "USDC", "USDT"), ("ADATUSD", "ADA", "TUSD"),
  ("TRXTUSD", "TRX", "TUSD"), ("NEOTUSD", "NEO", "TUSD"), ("TRXXRP", "TRX", "XRP"),
  ("XZCXRP", "XZC", "XRP"), ("PAXTUSD", "PAX", "TUSD"), ("USDCTUSD", "USDC", "TUSD"),
  ("USDCPAX", "USDC", "PAX"), ("LINKUSDT", "LINK", "USDT"), ("LINKTUSD", "LINK", "TUSD"),
  ("LINKPAX", "LINK", "PAX"), ("LINKUSDC", "LINK", "USDC"), ("WAVESUSDT", "WAVES", "USDT"),
  ("WAVESTUSD", "WAVES", "TUSD"), ("WAVESPAX", "WAVES", "PAX"), ("WAVESUSDC", "WAVES", "USDC"),
  ("BCHABCTUSD", "BCHABC", "TUSD"), ("BCHABCPAX", "BCHABC", "PAX"), ("BCHABCUSDC", "BCHABC", "USDC"),
  ("BCHSVTUSD", "BCHSV", "TUSD"), ("BCHSVPAX", "BCHSV", "PAX"), ("BCHSVUSDC", "BCHSV", "USDC"),
  ("LTCTUSD", "LTC", "TUSD"), ("LTCPAX", "LTC", "PAX"), ("LTCUSDC", "LTC", "USDC"),
  ("TRXPAX", "TRX", "PAX"), ("TRXUSDC", "TRX", "USDC"), ("BTTBTC", "BTT", "BTC"),
  ("BTTBNB", "BTT", "BNB"), ("BTTUSDT", "BTT", "USDT"), ("BNBUSDS", "BNB", "USDS"),
  ("BTCUSDS", "BTC", "USDS"), ("USDSUSDT", "USDS", "USDT"), ("USDSPAX", "USDS", "PAX"),
  ("USDSTUSD", "USDS", "TUSD"), ("USDSUSDC", "USDS", "USDC"), ("BTTPAX", "BTT", "PAX"),
  ("BTTTUSD", "BTT", "TUSD"), ("BTTUSDC", "BTT", "USDC"), ("ONGBNB", "ONG", "BNB"),
  ("ONGBTC", "ONG", "BTC"), ("ONGUSDT", "ONG", "USDT"), ("HOTBNB", "HOT", "BNB"),
  ("HOTUSDT", "HOT", "USDT"), ("ZILUSDT", "ZIL", "USDT"), ("ZRXBNB", "ZRX", "BNB"),
  ("ZRXUSDT", "ZRX", "USDT"), ("FETBNB", "FET", "BNB"), ("FETBTC", "FET", "BTC"),
  ("FETUSDT", "FET", "USDT"), ("BATUSDT", "BAT", "USDT"), ("XMRBNB", "XMR", "BNB"),
  ("XMRUSDT", "XMR", "USDT"), ("ZECBNB", "ZEC", "BNB"), ("ZECUSDT", "ZEC", "USDT"),
  ("ZECPAX", "ZEC", "PAX"), ("ZECTUSD", "ZEC", "TUSD"), ("ZECUSDC", "ZEC", "USDC"),
  ("IOSTUSDT", "IOST", "USDT"), ("CELRBNB", "CELR", "BNB"), ("CELRBTC", "CELR", "BTC"),
  ("CELRUSDT", "CELR", "USDT"), ("ADAPAX", "ADA", "PAX"), ("ADAUSDC", "ADA", "USDC"),
  ("NEOPAX", "NEO", "PAX"), ("NEOUSDC", "NEO", "USDC"), ("DASHBNB", "DASH", "BNB"),
  ("DASHUSDT", "DASH", "USDT"), ("NANOUSDT", "NANO", "USDT"), ("OMGBNB", "OMG", "BNB"),
  ("OMGUSDT", "OMG", "USDT"), ("THETAUSDT", "THETA", "USDT"), ("ENJUSDT", "ENJ", "USDT"),
  ("MITHUSDT", "MITH", "USDT"), ("MATICBNB", "MATIC", "BNB"), ("MATICBTC", "MATIC", "BTC"),
  ("MATICUSDT", "MATIC", "USDT"), ("ATOMBNB", "ATOM", "BNB"), ("ATOMBTC", "ATOM", "BTC"),
  ("ATOMUSDT", "ATOM", "USDT"), ("ATOMUSDC", "ATOM", "USDC"), ("ATOMPAX", "ATOM", "PAX"),
  ("ATOMTUSD", "ATOM", "TUSD"), ("ETCUSDC", "ETC", "USDC"), ("ETCPAX", "ETC", "PAX"),
  ("ETCTUSD", "ETC", "TUSD"), ("BATUSDC", "BAT", "USDC"), ("BATPAX", "BAT", "PAX"),
  ("BATTUSD", "BAT", "TUSD"), ("PHBBNB", "PHB", "BNB"), ("PHBBTC", "PHB", "BTC"),
  ("PHBUSDC", "PHB", "USDC"), ("PHBTUSD", "PHB", "TUSD"), ("PHBPAX", "PHB", "PAX"),
  ("TFUELBNB", "TFUEL", "BNB"), ("TFUELBTC", "TFUEL", "BTC"), ("TFUELUSDT", "TFUEL", "USDT"),
  ("TFUELUSDC", "TFUEL", "USDC"), ("TFUELTUSD", "TFUEL", "TUSD"), ("TFUELPAX", "TFUEL", "PAX"),
  ("ONEBNB", "ONE", "BNB"), ("ONEBTC", "ONE", "BTC"), ("ONEUSDT", "ONE", "USDT"),
  ("ONETUSD", "ONE", "TUSD"), ("ONEPAX", "ONE", "PAX"), ("ONEUSDC", "ONE", "USDC"),
  ("FTMBNB", "FTM", "BNB"), ("FTMBTC", "FTM", "BTC"), ("FTMUSDT", "FTM", "USDT"),
  ("FTMTUSD", "FTM", "TUSD"), ("FTMPAX", "FTM", "PAX"), ("FTMUSDC", "FTM", "USDC"),
  ("BTCBBTC", "BTCB", "BTC"), ("BCPTTUSD", "BCPT", "TUSD"), ("BCPTPAX", "BCPT", "PAX"),
  ("BCPTUSDC", "BCPT", "USDC"), ("ALGOBNB", "ALGO", "BNB"), ("ALGOBTC", "ALGO", "BTC"),
  ("ALGOUSDT", "ALGO", "USDT"), ("ALGOTUSD", "ALGO", "TUSD"), ("ALGOPAX", "ALGO", "PAX"),
  ("ALGOUSDC", "ALGO", "USDC"), ("USDSBUSDT", "USDSB", "USDT"), ("USDSBUSDS", "USDSB", "USDS"),
  ("GTOUSDT", "GTO", "USDT"), ("GTOPAX", "GTO", "PAX"), ("GTOTUSD", "GTO", "TUSD"),
  ("GTOUSDC", "GTO", "USDC"), ("ERDBNB", "ERD", "BNB"), ("ERDBTC", "ERD", "BTC"),
  ("ERDUSDT", "ERD", "USDT"), ("ERDPAX", "ERD", "PAX"), ("ERDUSDC", "ERD", "USDC"),
  ("DOGEBNB", "DOGE", "BNB"), ("DOGEBTC", "DOGE", "BTC"), ("DOGEUSDT", "DOGE", "USDT"),
  ("DOGEPAX", "DOGE", "PAX"), ("DOGEUSDC", "DOGE", "USDC"), ("DUSKBNB", "DUSK", "BNB"),
  ("DUSKBTC", "DUSK", "BTC"), ("DUSKUSDT", "DUSK", "USDT"), ("DUSKUSDC", "DUSK", "USDC"),
  ("DUSKPAX", "DUSK", "PAX"), ("BGBPUSDC", "BGBP", "USDC"), ("ANKRBNB", "ANKR", "BNB"),
  ("ANKRBTC", "ANKR", "BTC"), ("ANKRUSDT", "ANKR", "USDT"), ("ANKRTUSD", "ANKR", "TUSD"),
  ("ANKRPAX", "ANKR", "PAX"), ("ANKRUSDC", "ANKR", "USDC"), ("ONTPAX", "ONT", "PAX"),
  ("ONTUSDC", "ONT", "USDC"), ("WINBNB", "WIN", "BNB"), ("WINBTC", "WIN", "BTC"),
  ("WINUSDT", "WIN", "USDT"), ("WINUSDC", "WIN", "USDC"), ("COSBNB", "COS", "BNB"),
  ("COSBTC", "COS", "BTC"), ("COSUSDT", "COS", "USDT"), ("TUSDBTUSD", "TUSDB", "TUSD"),
  ("NPXSUSDT", "NPXS", "USDT"), ("NPXSUSDC", "NPXS", "USDC"), ("COCOSBNB", "COCOS", "BNB"),
  ("COCOSBTC", "COCOS", "BTC"), ("COCOSUSDT", "COCOS", "USDT"), ("MTLUSDT", "MTL", "USDT"),
  ("TOMOBNB", "TOMO", "BNB"), ("TOMOBTC", "TOMO", "BTC"), ("TOMOUSDT", "TOMO", "USDT"),
  ("TOMOUSDC", "TOMO", "USDC"), ("PERLBNB", "PERL", "BNB"), ("PERLBTC", "PERL", "BTC"),
  ("PERLUSDC", "PERL", "USDC"), ("PERLUSDT", "PERL", "USDT"), ("DENTUSDT", "DENT", "USDT"),
  ("MFTUSDT", "MFT", "USDT"), ("KEYUSDT", "KEY", "USDT")]

/-- market/pair_mappings.go:604-803 -/
def pairTable3 : List (String × String × String) := [
  ("STORMUSDT", "STORM", "USDT"), ("DOCKUSDT", "DOCK", "USDT"), ("WANUSDT", "WAN", "USDT"),
  ("FUNUSDT", "FUN", "USDT"), ("CVCUSDT", "CVC", "USDT"), ("BTTTRX", "BTT", "TRX"),
  ("WINTRX", "WIN", "TRX"), ("CHZBNB", "CHZ", "BNB"), ("CHZBTC", "CHZ", "BTC"),
  ("CHZUSDT", "CHZ", "USDT"), ("BANDBNB", "BAND", "BNB"), ("BANDBTC", "BAND", "BTC"),
  ("BANDUSDT", "BAND", "USDT"), ("BNBBUSD", "BNB", "BUSD"), ("BTCBUSD", "BTC", "BUSD"),
  ("BUSDUSDT", "BUSD", "USDT"), ("BEAMBNB", "BEAM", "BNB"), ("BEAMBTC", "BEAM", "BTC"),
  ("BEAMUSDT", "BEAM", "USDT"), ("XTZBNB", "XTZ", "BNB"), ("XTZBTC", "XTZ", "BTC"),
  ("XTZUSDT", "XTZ", "USDT"), ("RENUSDT", "REN", "USDT"), ("RVNUSDT", "RVN", "USDT"),
  ("HCUSDT", "HC", "USDT"), ("HBARBNB", "HBAR", "BNB"), ("HBARBTC", "HBAR", "BTC"),
  ("HBARUSDT", "HBAR", "USDT"), ("NKNBNB", "NKN", "BNB"), ("NKNBTC", "NKN", "BTC"),
  ("NKNUSDT", "NKN", "USDT"), ("XRPBUSD", "XRP", "BUSD"), ("ETHBUSD", "ETH", "BUSD"),
  ("BCHABCBUSD", "BCHABC", "BUSD"), ("LTCBUSD", "LTC", "BUSD"), ("LINKBUSD", "LINK", "BUSD"),
  ("ETCBUSD", "ETC", "BUSD"), ("STXBNB", "STX", "BNB"), ("STXBTC", "STX", "BTC"),
  ("STXUSDT", "STX", "USDT"), ("KAVABNB", "KAVA", "BNB"), ("KAVABTC", "KAVA", "BTC"),
  ("KAVAUSDT", "KAVA", "USDT"), ("BUSDNGN", "BUSD", "NGN"), ("BNBNGN", "BNB", "NGN"),
  ("BTCNGN", "BTC", "NGN"), ("ARPABNB", "ARPA", "BNB"), ("ARPABTC", "ARPA", "BTC"),
  ("ARPAUSDT", "ARPA", "USDT"), ("TRXBUSD", "TRX", "BUSD"), ("EOSBUSD", "EOS", "BUSD"),
  ("IOTXUSDT", "IOTX", "USDT"), ("RLCUSDT", "RLC", "USDT"), ("MCOUSDT", "MCO", "USDT"),
  ("XLMBUSD", "XLM", "BUSD"), ("ADABUSD", "ADA", "BUSD"), ("CTXCBNB", "CTXC", "BNB"),
  ("CTXCBTC", "CTXC", "BTC"), ("CTXCUSDT", "CTXC", "USDT"), ("BCHBNB", "BCH", "BNB"),
  ("BCHBTC", "BCH", "BTC"), ("BCHUSDT", "BCH", "USDT"), ("BCHUSDC", "BCH", "USDC"),
  ("BCHTUSD", "BCH", "TUSD"), ("BCHPAX", "BCH", "PAX"), ("BCHBUSD", "BCH", "BUSD"),
  ("BTCRUB", "BTC", "RUB"), ("ETHRUB", "ETH", "RUB"), ("XRPRUB", "XRP", "RUB"),
  ("BNBRUB", "BNB", "RUB"), ("TROYBNB", "TROY", "BNB"), ("TROYBTC", "TROY", "BTC"),
  ("TROYUSDT", "TROY", "USDT"), ("BUSDRUB", "BUSD", "RUB"), ("QTUMBUSD", "QTUM", "BUSD"),
  ("VETBUSD", "VET", "BUSD"), ("VITEBNB", "VITE", "BNB"), ("VITEBTC", "VITE", "BTC"),
  ("VITEUSDT", "VITE", "USDT"), ("FTTBNB", "FTT", "BNB"), ("FTTBTC", "FTT", "BTC"),
  ("FTTUSDT", "FTT", "USDT"), ("BTCTRY", "BTC", "TRY"), ("BNBTRY", "BNB", "TRY"),
  ("BUSDTRY", "BUSD", "TRY"), ("ETHTRY", "ETH", "TRY"), ("XRPTRY", "XRP", "TRY"),
  ("USDTTRY", "USDT", "TRY"), ("USDTRUB", "USDT", "RUB"), ("BTCEUR", "BTC", "EUR"),
  ("ETHEUR", "ETH", "EUR"), ("BNBEUR", "BNB", "EUR"), ("XRPEUR", "XRP", "EUR"),
  ("EURBUSD", "EUR", "BUSD"), ("EURUSDT", "EUR", "USDT"), ("OGNBNB", "OGN", "BNB"),
  ("OGNBTC", "OGN", "BTC"), ("OGNUSDT", "OGN", "USDT"), ("DREPBNB", "DREP", "BNB"),
  ("DREPBTC", "DREP", "BTC"), ("DREPUSDT", "DREP", "USDT"), ("BULLUSDT", "BULL", "USDT"),
  ("BULLBUSD", "BULL", "BUSD"), ("BEARUSDT", "BEAR", "USDT"), ("BEARBUSD", "BEAR", "BUSD"),
  ("ETHBULLUSDT", "ETHBULL", "USDT"), ("ETHBULLBUSD", "ETHBULL", "BUSD"), ("ETHBEARUSDT", "ETHBEAR", "USDT"),
  ("ETHBEARBUSD", "ETHBEAR", "BUSD"), ("TCTBNB", "TCT", "BNB"), ("TCTBTC", "TCT", "BTC"),
  ("TCTUSDT", "TCT", "USDT"), ("WRXBNB", "WRX", "BNB"), ("WRXBTC", "WRX", "BTC"),
  ("WRXUSDT", "WRX", "USDT"), ("ICXBUSD", "ICX", "BUSD"), ("BTSUSDT", "BTS", "USDT"),
  ("BTSBUSD", "BTS", "BUSD"), ("LSKUSDT", "LSK", "USDT"), ("BNTUSDT", "BNT", "USDT"),
  ("BNTBUSD", "BNT", "BUSD"), ("LTOBNB", "LTO", "BNB"), ("LTOBTC", "LTO", "BTC"),
  ("LTOUSDT", "LTO", "USDT"), ("ATOMBUSD", "ATOM", "BUSD"), ("DASHBUSD", "DASH", "BUSD"),
  ("NEOBUSD", "NEO", "BUSD"), ("WAVESBUSD", "WAVES", "BUSD"), ("XTZBUSD", "XTZ", "BUSD"),
  ("EOSBULLUSDT", "EOSBULL", "USDT"), ("EOSBULLBUSD", "EOSBULL", "BUSD"), ("EOSBEARUSDT", "EOSBEAR", "USDT"),
  ("EOSBEARBUSD", "EOSBEAR", "BUSD"), ("XRPBULLUSDT", "XRPBULL", "USDT"), ("XRPBULLBUSD", "XRPBULL", "BUSD"),
  ("XRPBEARUSDT", "XRPBEAR", "USDT"), ("XRPBEARBUSD", "XRPBEAR", "BUSD"), ("BATBUSD", "BAT", "BUSD"),
  ("ENJBUSD", "ENJ", "BUSD"), ("NANOBUSD", "NANO", "BUSD"), ("ONTBUSD", "ONT", "BUSD"),
  ("RVNBUSD", "RVN", "BUSD"), ("STRATBUSD", "STRAT", "BUSD"), ("STRATBNB", "STRAT", "BNB"),
  ("STRATUSDT", "STRAT", "USDT"), ("AIONBUSD", "AION", "BUSD"), ("AIONUSDT", "AION", "USDT"),
  ("MBLBNB", "MBL", "BNB"), ("MBLBTC", "MBL", "BTC"), ("MBLUSDT", "MBL", "USDT"),
  ("COTIBNB", "COTI", "BNB"), ("COTIBTC", "COTI", "BTC"), ("COTIUSDT", "COTI", "USDT"),
  ("ALGOBUSD", "ALGO", "BUSD"), ("BTTBUSD", "BTT", "BUSD"), ("TOMOBUSD", "TOMO", "BUSD"),
  ("XMRBUSD", "XMR", "BUSD"), ("ZECBUSD", "ZEC", "BUSD"), ("BNBBULLUSDT", "BNBBULL", "USDT"),
  ("BNBBULLBUSD", "BNBBULL", "BUSD"), ("BNBBEARUSDT", "BNBBEAR", "USDT"), ("BNBBEARBUSD", "BNBBEAR", "BUSD"),
  ("STPTBNB", "STPT", "BNB"), ("STPTBTC", "STPT", "BTC"), ("STPTUSDT", "STPT", "USDT"),
  ("BTCZAR", "BTC", "ZAR"), ("ETHZAR", "ETH", "ZAR"), ("BNBZAR", "BNB", "ZAR"),
  ("USDTZAR", "USDT", "ZAR"), ("BUSDZAR", "BUSD", "ZAR"), ("BTCBKRW", "BTC", "BKRW"),
  ("ETHBKRW", "ETH", "BKRW"), ("BNBBKRW", "BNB", "BKRW"), ("WTCUSDT", "WTC", "USDT"),
  ("DATABUSD", "DATA", "BUSD"), ("DATAUSDT", "DATA", "USDT"), ("XZCUSDT", "XZC", "USDT"),
  ("SOLBNB", "SOL", "BNB"), ("SOLBTC", "SOL", "BTC"), ("SOLUSDT", "SOL", "USDT"),
  ("SOLBUSD", "SOL", "BUSD"), ("BTCIDRT", "BTC", "IDRT"), ("BNBIDRT", "BNB", "IDRT"),
  ("USDTIDRT", "USDT", "IDRT"), ("BUSDIDRT", "BUSD", "IDRT"), ("CTSIBTC", "CTSI", "BTC"),
  ("CTSIUSDT", "CTSI", "USDT"), ("CTSIBNB", "CTSI", "BNB"), ("CTSIBUSD", "CTSI", "BUSD"),
  ("HIVEBNB", "HIVE", "BNB"), ("HIVEBTC", "HIVE", "BTC"), ("HIVEUSDT", "HIVE", "USDT"),
  ("CHRBNB", "CHR", "BNB"), ("CHRBTC", "CHR", "BTC"), ("CHRUSDT", "CHR", "USDT"),
  ("BTCUPUSDT", "BTCUP", "USDT"), ("BTCDOWNUSDT", "BTCDOWN", "USDT"), ("GXSUSDT", "GXS", "USDT"),
  ("ARDRUSDT", "ARDR", "USDT"), ("ERDBUSD", "ERD", "BUSD")]

/-- market/pair_mappings.go:804-1003 -/
def pairTable4 : List (String × String × String) := [
  ("LENDUSDT", "LEND", "USDT"), ("HBARBUSD", "HBAR", "BUSD"), ("MATICBUSD", "MATIC", "BUSD"),
  ("WRXBUSD", "WRX", "BUSD"), ("ZILBUSD", "ZIL", "BUSD"), ("MDTBNB", "MDT", "BNB"),
  ("MDTBTC", "MDT", "BTC"), ("MDTUSDT", "MDT", "USDT"), ("STMXBTC", "STMX", "BTC"),
  ("STMXETH", "STMX", "ETH"), ("STMXUSDT", "STMX", "USDT"), ("KNCBUSD", "KNC", "BUSD"),
  ("KNCUSDT", "KNC", "USDT"), ("REPBUSD", "REP", "BUSD"), ("REPUSDT", "REP", "USDT"),
  ("LRCBUSD", "LRC", "BUSD"), ("LRCUSDT", "LRC", "USDT"), ("IQBNB", "IQ", "BNB"),
  ("IQBUSD", "IQ", "BUSD"), ("PNTBTC", "PNT", "BTC"), ("PNTUSDT", "PNT", "USDT"),
  ("BTCGBP", "BTC", "GBP"), ("ETHGBP", "ETH", "GBP"), ("XRPGBP", "XRP", "GBP"),
  ("BNBGBP", "BNB", "GBP"), ("GBPBUSD", "GBP", "BUSD"), ("DGBBTC", "DGB", "BTC"),
  ("DGBBUSD", "DGB", "BUSD"), ("BTCUAH", "BTC", "UAH"), ("USDTUAH", "USDT", "UAH"),
  ("COMPBTC", "COMP", "BTC"), ("COMPBNB", "COMP", "BNB"), ("COMPBUSD", "COMP", "BUSD"),
  ("COMPUSDT", "COMP", "USDT"), ("BTCBIDR", "BTC", "BIDR"), ("ETHBIDR", "ETH", "BIDR"),
  ("BNBBIDR", "BNB", "BIDR"), ("BUSDBIDR", "BUSD", "BIDR"), ("USDTBIDR", "USDT", "BIDR"),
  ("BKRWUSDT", "BKRW", "USDT"), ("BKRWBUSD", "BKRW", "BUSD"), ("SCUSDT", "SC", "USDT"),
  ("ZENUSDT", "ZEN", "USDT"), ("SXPBTC", "SXP", "BTC"), ("SXPBNB", "SXP", "BNB"),
  ("SXPBUSD", "SXP", "BUSD"), ("SNXBTC", "SNX", "BTC"), ("SNXBNB", "SNX", "BNB"),
  ("SNXBUSD", "SNX", "BUSD"), ("SNXUSDT", "SNX", "USDT"), ("ETHUPUSDT", "ETHUP", "USDT"),
  ("ETHDOWNUSDT", "ETHDOWN", "USDT"), ("ADAUPUSDT", "ADAUP", "USDT"), ("ADADOWNUSDT", "ADADOWN", "USDT"),
  ("LINKUPUSDT", "LINKUP", "USDT"), ("LINKDOWNUSDT", "LINKDOWN", "USDT"), ("VTHOBNB", "VTHO", "BNB"),
  ("VTHOBUSD", "VTHO", "BUSD"), ("VTHOUSDT", "VTHO", "USDT"), ("DCRBUSD", "DCR", "BUSD"),
  ("DGBUSDT", "DGB", "USDT"), ("GBPUSDT", "GBP", "USDT"), ("STORJBUSD", "STORJ", "BUSD"),
  ("SXPUSDT", "SXP", "USDT"), ("IRISBNB", "IRIS", "BNB"), ("IRISBTC", "IRIS", "BTC"),
  ("IRISBUSD", "IRIS", "BUSD"), ("MKRBNB", "MKR", "BNB"), ("MKRBTC", "MKR", "BTC"),
  ("MKRUSDT", "MKR", "USDT"), ("MKRBUSD", "MKR", "BUSD"), ("DAIBNB", "DAI", "BNB"),
  ("DAIBTC", "DAI", "BTC"), ("DAIUSDT", "DAI", "USDT"), ("DAIBUSD", "DAI", "BUSD"),
  ("RUNEBNB", "RUNE", "BNB"), ("RUNEBTC", "RUNE", "BTC"), ("RUNEBUSD", "RUNE", "BUSD"),
  ("MANABUSD", "MANA", "BUSD"), ("DOGEBUSD", "DOGE", "BUSD"), ("LENDBUSD", "LEND", "BUSD"),
  ("ZRXBUSD", "ZRX", "BUSD"), ("DCRUSDT", "DCR", "USDT"), ("STORJUSDT", "STORJ", "USDT"),
  ("XRPBKRW", "XRP", "BKRW"), ("ADABKRW", "ADA", "BKRW"), ("BTCAUD", "BTC", "AUD"),
  ("ETHAUD", "ETH", "AUD"), ("AUDBUSD", "AUD", "BUSD"), ("FIOBNB", "FIO", "BNB"),
  ("FIOBTC", "FIO", "BTC"), ("FIOBUSD", "FIO", "BUSD"), ("BNBUPUSDT", "BNBUP", "USDT"),
  ("BNBDOWNUSDT", "BNBDOWN", "USDT"), ("XTZUPUSDT", "XTZUP", "USDT"), ("XTZDOWNUSDT", "XTZDOWN", "USDT"),
  ("AVABNB", "AVA", "BNB"), ("AVABTC", "AVA", "BTC"), ("AVABUSD", "AVA", "BUSD"),
  ("USDTBKRW", "USDT", "BKRW"), ("BUSDBKRW", "BUSD", "BKRW"), ("IOTABUSD", "IOTA", "BUSD"),
  ("MANAUSDT", "MANA", "USDT"), ("XRPAUD", "XRP", "AUD"), ("BNBAUD", "BNB", "AUD"),
  ("AUDUSDT", "AUD", "USDT"), ("BALBNB", "BAL", "BNB"), ("BALBTC", "BAL", "BTC"),
  ("BALBUSD", "BAL", "BUSD"), ("YFIBNB", "YFI", "BNB"), ("YFIBTC", "YFI", "BTC"),
  ("YFIBUSD", "YFI", "BUSD"), ("YFIUSDT", "YFI", "USDT"), ("BLZBUSD", "BLZ", "BUSD"),
  ("KMDBUSD", "KMD", "BUSD"), ("BALUSDT", "BAL", "USDT"), ("BLZUSDT", "BLZ", "USDT"),
  ("IRISUSDT", "IRIS", "USDT"), ("KMDUSDT", "KMD", "USDT"), ("BTCDAI", "BTC", "DAI"),
  ("ETHDAI", "ETH", "DAI"), ("BNBDAI", "BNB", "DAI"), ("USDTDAI", "USDT", "DAI"),
  ("BUSDDAI", "BUSD", "DAI"), ("JSTBNB", "JST", "BNB"), ("JSTBTC", "JST", "BTC"),
  ("JSTBUSD", "JST", "BUSD"), ("JSTUSDT", "JST", "USDT"), ("SRMBNB", "SRM", "BNB"),
  ("SRMBTC", "SRM", "BTC"), ("SRMBUSD", "SRM", "BUSD"), ("SRMUSDT", "SRM", "USDT"),
  ("ANTBNB", "ANT", "BNB"), ("ANTBTC", "ANT", "BTC"), ("ANTBUSD", "ANT", "BUSD"),
  ("ANTUSDT", "ANT", "USDT"), ("CRVBNB", "CRV", "BNB"), ("CRVBTC", "CRV", "BTC"),
  ("CRVBUSD", "CRV", "BUSD"), ("CRVUSDT", "CRV", "USDT"), ("SANDBNB", "SAND", "BNB"),
  ("SANDBTC", "SAND", "BTC"), ("SANDUSDT", "SAND", "USDT"), ("SANDBUSD", "SAND", "BUSD"),
  ("OCEANBNB", "OCEAN", "BNB"), ("OCEANBTC", "OCEAN", "BTC"), ("OCEANBUSD", "OCEAN", "BUSD"),
  ("OCEANUSDT", "OCEAN", "USDT"), ("NMRBTC", "NMR", "BTC"), ("NMRBUSD", "NMR", "BUSD"),
  ("NMRUSDT", "NMR", "USDT"), ("DOTBNB", "DOT", "BNB"), ("DOTBTC", "DOT", "BTC"),
  ("DOTBUSD", "DOT", "BUSD"), ("DOTUSDT", "DOT", "USDT"), ("LUNABNB", "LUNA", "BNB"),
  ("LUNABTC", "LUNA", "BTC"), ("LUNABUSD", "LUNA", "BUSD"), ("LUNAUSDT", "LUNA", "USDT"),
  ("IDEXBTC", "IDEX", "BTC"), ("IDEXBUSD", "IDEX", "BUSD"), ("RSRBNB", "RSR", "BNB"),
  ("RSRBTC", "RSR", "BTC"), ("RSRBUSD", "RSR", "BUSD"), ("RSRUSDT", "RSR", "USDT"),
  ("PAXGBNB", "PAXG", "BNB"), ("PAXGBTC", "PAXG", "BTC"), ("PAXGBUSD", "PAXG", "BUSD"),
  ("PAXGUSDT", "PAXG", "USDT"), ("WNXMBNB", "WNXM", "BNB"), ("WNXMBTC", "WNXM", "BTC"),
  ("WNXMBUSD", "WNXM", "BUSD"), ("WNXMUSDT", "WNXM", "USDT"), ("TRBBNB", "TRB", "BNB"),
  ("TRBBTC", "TRB", "BTC"), ("TRBBUSD", "TRB", "BUSD"), ("TRBUSDT", "TRB", "USDT"),
  ("ETHNGN", "ETH", "NGN"), ("DOTBIDR", "DOT", "BIDR"), ("LINKAUD", "LINK", "AUD"),
  ("SXPAUD", "SXP", "AUD"), ("BZRXBNB", "BZRX", "BNB"), ("BZRXBTC", "BZRX", "BTC"),
  ("BZRXBUSD", "BZRX", "BUSD"), ("BZRXUSDT", "BZRX", "USDT"), ("WBTCBTC", "WBTC", "BTC"),
  ("WBTCETH", "WBTC", "ETH"), ("SUSHIBNB", "SUSHI", "BNB"), ("SUSHIBTC", "SUSHI", "BTC"),
  ("SUSHIBUSD", "SUSHI", "BUSD"), ("SUSHIUSDT", "SUSHI", "USDT"), ("YFIIBNB", "YFII", "BNB"),
  ("YFIIBTC", "YFII", "BTC"), ("YFIIBUSD", "YFII", "BUSD"), ("YFIIUSDT", "YFII", "USDT"),
  ("KSMBNB", "KSM", "BNB"), ("KSMBTC", "KSM", "BTC"), ("KSMBUSD", "KSM", "BUSD"),
  ("KSMUSDT", "KSM", "USDT"), ("EGLDBNB", "EGLD", "BNB")]

/-- market/pair_mappings.go:1004-1203 -/
def pairTable5 : List (String × String × String) := [
  ("EGLDBTC", "EGLD", "BTC"), ("EGLDBUSD", "EGLD", "BUSD"), ("EGLDUSDT", "EGLD", "USDT"),
  ("DIABNB", "DIA", "BNB"), ("DIABTC", "DIA", "BTC"), ("DIABUSD", "DIA", "BUSD"),
  ("DIAUSDT", "DIA", "USDT"), ("RUNEUSDT", "RUNE", "USDT"), ("FIOUSDT", "FIO", "USDT"),
  ("UMABTC", "UMA", "BTC"), ("UMAUSDT", "UMA", "USDT"), ("EOSUPUSDT", "EOSUP", "USDT"),
  ("EOSDOWNUSDT", "EOSDOWN", "USDT"), ("TRXUPUSDT", "TRXUP", "USDT"), ("TRXDOWNUSDT", "TRXDOWN", "USDT"),
  ("XRPUPUSDT", "XRPUP", "USDT"), ("XRPDOWNUSDT", "XRPDOWN", "USDT"), ("DOTUPUSDT", "DOTUP", "USDT"),
  ("DOTDOWNUSDT", "DOTDOWN", "USDT"), ("SRMBIDR", "SRM", "BIDR"), ("ONEBIDR", "ONE", "BIDR"),
  ("LINKTRY", "LINK", "TRY"), ("USDTNGN", "USDT", "NGN"), ("BELBNB", "BEL", "BNB"),
  ("BELBTC", "BEL", "BTC"), ("BELBUSD", "BEL", "BUSD"), ("BELUSDT", "BEL", "USDT"),
  ("WINGBNB", "WING", "BNB"), ("WINGBTC", "WING", "BTC"), ("SWRVBNB", "SWRV", "BNB"),
  ("SWRVBUSD", "SWRV", "BUSD"), ("WINGBUSD", "WING", "BUSD"), ("WINGUSDT", "WING", "USDT"),
  ("LTCUPUSDT", "LTCUP", "USDT"), ("LTCDOWNUSDT", "LTCDOWN", "USDT"), ("LENDBKRW", "LEND", "BKRW"),
  ("SXPEUR", "SXP", "EUR"), ("CREAMBNB", "CREAM", "BNB"), ("CREAMBUSD", "CREAM", "BUSD"),
  ("UNIBNB", "UNI", "BNB"), ("UNIBTC", "UNI", "BTC"), ("UNIBUSD", "UNI", "BUSD"),
  ("UNIUSDT", "UNI", "USDT"), ("NBSBTC", "NBS", "BTC"), ("NBSUSDT", "NBS", "USDT"),
  ("OXTBTC", "OXT", "BTC"), ("OXTUSDT", "OXT", "USDT"), ("SUNBTC", "SUN", "BTC"),
  ("SUNUSDT", "SUN", "USDT"), ("AVAXBNB", "AVAX", "BNB"), ("AVAXBTC", "AVAX", "BTC"),
  ("AVAXBUSD", "AVAX", "BUSD"), ("AVAXUSDT", "AVAX", "USDT"), ("HNTBTC", "HNT", "BTC"),
  ("HNTUSDT", "HNT", "USDT"), ("BAKEBNB", "BAKE", "BNB"), ("BURGERBNB", "BURGER", "BNB"),
  ("SXPBIDR", "SXP", "BIDR"), ("LINKBKRW", "LINK", "BKRW"), ("FLMBNB", "FLM", "BNB"),
  ("FLMBTC", "FLM", "BTC"), ("FLMBUSD", "FLM", "BUSD"), ("FLMUSDT", "FLM", "USDT"),
  ("SCRTBTC", "SCRT", "BTC"), ("SCRTETH", "SCRT", "ETH"), ("CAKEBNB", "CAKE", "BNB"),
  ("CAKEBUSD", "CAKE", "BUSD"), ("SPARTABNB", "SPARTA", "BNB"), ("UNIUPUSDT", "UNIUP", "USDT"),
  ("UNIDOWNUSDT", "UNIDOWN", "USDT"), ("ORNBTC", "ORN", "BTC"), ("ORNUSDT", "ORN", "USDT"),
  ("TRXNGN", "TRX", "NGN"), ("SXPTRY", "SXP", "TRY"), ("UTKBTC", "UTK", "BTC"),
  ("UTKUSDT", "UTK", "USDT"), ("XVSBNB", "XVS", "BNB"), ("XVSBTC", "XVS", "BTC"),
  ("XVSBUSD", "XVS", "BUSD"), ("XVSUSDT", "XVS", "USDT"), ("ALPHABNB", "ALPHA", "BNB"),
  ("ALPHABTC", "ALPHA", "BTC"), ("ALPHABUSD", "ALPHA", "BUSD"), ("ALPHAUSDT", "ALPHA", "USDT"),
  ("VIDTBTC", "VIDT", "BTC"), ("VIDTBUSD", "VIDT", "BUSD"), ("AAVEBNB", "AAVE", "BNB"),
  ("BTCBRL", "BTC", "BRL"), ("USDTBRL", "USDT", "BRL"), ("AAVEBTC", "AAVE", "BTC"),
  ("AAVEETH", "AAVE", "ETH"), ("AAVEBUSD", "AAVE", "BUSD"), ("AAVEUSDT", "AAVE", "USDT"),
  ("AAVEBKRW", "AAVE", "BKRW"), ("NEARBNB", "NEAR", "BNB"), ("NEARBTC", "NEAR", "BTC"),
  ("NEARBUSD", "NEAR", "BUSD"), ("NEARUSDT", "NEAR", "USDT"), ("SXPUPUSDT", "SXPUP", "USDT"),
  ("SXPDOWNUSDT", "SXPDOWN", "USDT"), ("DOTBKRW", "DOT", "BKRW"), ("SXPGBP", "SXP", "GBP"),
  ("FILBNB", "FIL", "BNB"), ("FILBTC", "FIL", "BTC"), ("FILBUSD", "FIL", "BUSD"),
  ("FILUSDT", "FIL", "USDT"), ("FILUPUSDT", "FILUP", "USDT"), ("FILDOWNUSDT", "FILDOWN", "USDT"),
  ("YFIUPUSDT", "YFIUP", "USDT"), ("YFIDOWNUSDT", "YFIDOWN", "USDT"), ("INJBNB", "INJ", "BNB"),
  ("INJBTC", "INJ", "BTC"), ("INJBUSD", "INJ", "BUSD"), ("INJUSDT", "INJ", "USDT"),
  ("AERGOBTC", "AERGO", "BTC"), ("AERGOBUSD", "AERGO", "BUSD"), ("LINKEUR", "LINK", "EUR"),
  ("ONEBUSD", "ONE", "BUSD"), ("EASYETH", "EASY", "ETH"), ("AUDIOBTC", "AUDIO", "BTC"),
  ("AUDIOBUSD", "AUDIO", "BUSD"), ("AUDIOUSDT", "AUDIO", "USDT"), ("CTKBNB", "CTK", "BNB"),
  ("CTKBTC", "CTK", "BTC"), ("CTKBUSD", "CTK", "BUSD"), ("CTKUSDT", "CTK", "USDT"),
  ("BCHUPUSDT", "BCHUP", "USDT"), ("BCHDOWNUSDT", "BCHDOWN", "USDT"), ("BOTBTC", "BOT", "BTC"),
  ("BOTBUSD", "BOT", "BUSD"), ("ETHBRL", "ETH", "BRL"), ("DOTEUR", "DOT", "EUR"),
  ("AKROBTC", "AKRO", "BTC"), ("AKROUSDT", "AKRO", "USDT"), ("KP3RBNB", "KP3R", "BNB"),
  ("KP3RBUSD", "KP3R", "BUSD"), ("AXSBNB", "AXS", "BNB"), ("AXSBTC", "AXS", "BTC"),
  ("AXSBUSD", "AXS", "BUSD"), ("AXSUSDT", "AXS", "USDT"), ("HARDBNB", "HARD", "BNB"),
  ("HARDBTC", "HARD", "BTC"), ("HARDBUSD", "HARD", "BUSD"), ("HARDUSDT", "HARD", "USDT"),
  ("BNBBRL", "BNB", "BRL"), ("LTCEUR", "LTC", "EUR"), ("RENBTCBTC", "RENBTC", "BTC"),
  ("RENBTCETH", "RENBTC", "ETH"), ("DNTBUSD", "DNT", "BUSD"), ("DNTUSDT", "DNT", "USDT"),
  ("SLPETH", "SLP", "ETH"), ("ADAEUR", "ADA", "EUR"), ("LTCNGN", "LTC", "NGN"),
  ("CVPETH", "CVP", "ETH"), ("CVPBUSD", "CVP", "BUSD"), ("STRAXBTC", "STRAX", "BTC"),
  ("STRAXETH", "STRAX", "ETH"), ("STRAXBUSD", "STRAX", "BUSD"), ("STRAXUSDT", "STRAX", "USDT"),
  ("FORBTC", "FOR", "BTC"), ("FORBUSD", "FOR", "BUSD"), ("UNFIBNB", "UNFI", "BNB"),
  ("UNFIBTC", "UNFI", "BTC"), ("UNFIBUSD", "UNFI", "BUSD"), ("UNFIUSDT", "UNFI", "USDT"),
  ("FRONTETH", "FRONT", "ETH"), ("FRONTBUSD", "FRONT", "BUSD"), ("BCHABUSD", "BCHA", "BUSD"),
  ("ROSEBTC", "ROSE", "BTC"), ("ROSEBUSD", "ROSE", "BUSD"), ("ROSEUSDT", "ROSE", "USDT"),
  ("AVAXTRY", "AVAX", "TRY"), ("BUSDBRL", "BUSD", "BRL"), ("AVAUSDT", "AVA", "USDT"),
  ("SYSBUSD", "SYS", "BUSD"), ("XEMUSDT", "XEM", "USDT"), ("HEGICETH", "HEGIC", "ETH"),
  ("HEGICBUSD", "HEGIC", "BUSD"), ("AAVEUPUSDT", "AAVEUP", "USDT"), ("AAVEDOWNUSDT", "AAVEDOWN", "USDT"),
  ("PROMBNB", "PROM", "BNB"), ("PROMBUSD", "PROM", "BUSD"), ("XRPBRL", "XRP", "BRL"),
  ("XRPNGN", "XRP", "NGN"), ("SKLBTC", "SKL", "BTC"), ("SKLBUSD", "SKL", "BUSD"),
  ("SKLUSDT", "SKL", "USDT"), ("BCHEUR", "BCH", "EUR"), ("YFIEUR", "YFI", "EUR"),
  ("ZILBIDR", "ZIL", "BIDR"), ("SUSDBTC", "SUSD", "BTC"), ("SUSDETH", "SUSD", "ETH"),
  ("SUSDUSDT", "SUSD", "USDT"), ("COVERETH", "COVER", "ETH"), ("COVERBUSD", "COVER", "BUSD"),
  ("GLMBTC", "GLM", "BTC"), ("GLMETH", "GLM", "ETH"), ("GHSTETH", "GHST", "ETH"),
  ("GHSTBUSD", "GHST", "BUSD"), ("SUSHIUPUSDT", "SUSHIUP", "USDT")]

/-- market/pair_mappings.go:1204-1403 -/
def pairTable6 : List (String × String × String) := [
  ("SUSHIDOWNUSDT", "SUSHIDOWN", "USDT"), ("XLMUPUSDT", "XLMUP", "USDT"), ("XLMDOWNUSDT", "XLMDOWN", "USDT"),
  ("LINKBRL", "LINK", "BRL"), ("LINKNGN", "LINK", "NGN"), ("LTCRUB", "LTC", "RUB"),
  ("TRXTRY", "TRX", "TRY"), ("XLMEUR", "XLM", "EUR"), ("DFETH", "DF", "ETH"),
  ("DFBUSD", "DF", "BUSD"), ("GRTBTC", "GRT", "BTC"), ("GRTETH", "GRT", "ETH"),
  ("GRTUSDT", "GRT", "USDT"), ("JUVBTC", "JUV", "BTC"), ("JUVBUSD", "JUV", "BUSD"),
  ("JUVUSDT", "JUV", "USDT"), ("PSGBTC", "PSG", "BTC"), ("PSGBUSD", "PSG", "BUSD"),
  ("PSGUSDT", "PSG", "USDT"), ("BUSDBVND", "BUSD", "BVND"), ("USDTBVND", "USDT", "BVND"),
  ("1INCHBTC", "1INCH", "BTC"), ("1INCHUSDT", "1INCH", "USDT"), ("REEFBTC", "REEF", "BTC"),
  ("REEFUSDT", "REEF", "USDT"), ("OGBTC", "OG", "BTC"), ("OGUSDT", "OG", "USDT"),
  ("ATMBTC", "ATM", "BTC"), ("ATMUSDT", "ATM", "USDT"), ("ASRBTC", "ASR", "BTC"),
  ("ASRUSDT", "ASR", "USDT"), ("CELOBTC", "CELO", "BTC"), ("CELOUSDT", "CELO", "USDT"),
  ("RIFBTC", "RIF", "BTC"), ("RIFUSDT", "RIF", "USDT"), ("CHZTRY", "CHZ", "TRY"),
  ("XLMTRY", "XLM", "TRY"), ("LINKGBP", "LINK", "GBP"), ("GRTEUR", "GRT", "EUR"),
  ("BTCSTBTC", "BTCST", "BTC"), ("BTCSTBUSD", "BTCST", "BUSD"), ("BTCSTUSDT", "BTCST", "USDT"),
  ("TRUBTC", "TRU", "BTC"), ("TRUBUSD", "TRU", "BUSD"), ("TRUUSDT", "TRU", "USDT"),
  ("DEXEETH", "DEXE", "ETH"), ("DEXEBUSD", "DEXE", "BUSD"), ("EOSEUR", "EOS", "EUR"),
  ("LTCBRL", "LTC", "BRL"), ("USDCBUSD", "USDC", "BUSD"), ("TUSDBUSD", "TUSD", "BUSD"),
  ("PAXBUSD", "PAX", "BUSD"), ("CKBBTC", "CKB", "BTC"), ("CKBBUSD", "CKB", "BUSD"),
  ("CKBUSDT", "CKB", "USDT"), ("TWTBTC", "TWT", "BTC"), ("TWTBUSD", "TWT", "BUSD"),
  ("TWTUSDT", "TWT", "USDT"), ("FIROBTC", "FIRO", "BTC"), ("FIROETH", "FIRO", "ETH"),
  ("FIROUSDT", "FIRO", "USDT"), ("BETHETH", "BETH", "ETH"), ("DOGEEUR", "DOGE", "EUR"),
  ("DOGETRY", "DOGE", "TRY"), ("DOGEAUD", "DOGE", "AUD"), ("DOGEBRL", "DOGE", "BRL"),
  ("DOTNGN", "DOT", "NGN"), ("PROSETH", "PROS", "ETH"), ("LITBTC", "LIT", "BTC"),
  ("LITBUSD", "LIT", "BUSD"), ("LITUSDT", "LIT", "USDT"), ("BTCVAI", "BTC", "VAI"),
  ("BUSDVAI", "BUSD", "VAI"), ("SFPBTC", "SFP", "BTC"), ("SFPBUSD", "SFP", "BUSD"),
  ("SFPUSDT", "SFP", "USDT"), ("DOGEGBP", "DOGE", "GBP"), ("DOTTRY", "DOT", "TRY"),
  ("FXSBTC", "FXS", "BTC"), ("FXSBUSD", "FXS", "BUSD"), ("DODOBTC", "DODO", "BTC"),
  ("DODOBUSD", "DODO", "BUSD"), ("DODOUSDT", "DODO", "USDT"), ("FRONTBTC", "FRONT", "BTC"),
  ("EASYBTC", "EASY", "BTC"), ("CAKEBTC", "CAKE", "BTC"), ("CAKEUSDT", "CAKE", "USDT"),
  ("BAKEBUSD", "BAKE", "BUSD"), ("UFTETH", "UFT", "ETH"), ("UFTBUSD", "UFT", "BUSD"),
  ("1INCHBUSD", "1INCH", "BUSD"), ("BANDBUSD", "BAND", "BUSD"), ("GRTBUSD", "GRT", "BUSD"),
  ("IOSTBUSD", "IOST", "BUSD"), ("OMGBUSD", "OMG", "BUSD"), ("REEFBUSD", "REEF", "BUSD"),
  ("ACMBTC", "ACM", "BTC"), ("ACMBUSD", "ACM", "BUSD"), ("ACMUSDT", "ACM", "USDT"),
  ("AUCTIONBTC", "AUCTION", "BTC"), ("AUCTIONBUSD", "AUCTION", "BUSD"), ("PHABTC", "PHA", "BTC"),
  ("PHABUSD", "PHA", "BUSD"), ("DOTGBP", "DOT", "GBP"), ("ADATRY", "ADA", "TRY"),
  ("ADABRL", "ADA", "BRL"), ("ADAGBP", "ADA", "GBP"), ("TVKBTC", "TVK", "BTC"),
  ("TVKBUSD", "TVK", "BUSD"), ("BADGERBTC", "BADGER", "BTC"), ("BADGERBUSD", "BADGER", "BUSD"),
  ("BADGERUSDT", "BADGER", "USDT"), ("FISBTC", "FIS", "BTC"), ("FISBUSD", "FIS", "BUSD"),
  ("FISUSDT", "FIS", "USDT"), ("DOTBRL", "DOT", "BRL"), ("ADAAUD", "ADA", "AUD"),
  ("HOTTRY", "HOT", "TRY"), ("EGLDEUR", "EGLD", "EUR"), ("OMBTC", "OM", "BTC"),
  ("OMBUSD", "OM", "BUSD"), ("OMUSDT", "OM", "USDT"), ("PONDBTC", "POND", "BTC"),
  ("PONDBUSD", "POND", "BUSD"), ("PONDUSDT", "POND", "USDT"), ("DEGOBTC", "DEGO", "BTC"),
  ("DEGOBUSD", "DEGO", "BUSD"), ("DEGOUSDT", "DEGO", "USDT"), ("AVAXEUR", "AVAX", "EUR"),
  ("BTTTRY", "BTT", "TRY"), ("CHZBRL", "CHZ", "BRL"), ("UNIEUR", "UNI", "EUR"),
  ("ALICEBTC", "ALICE", "BTC"), ("ALICEBUSD", "ALICE", "BUSD"), ("ALICEUSDT", "ALICE", "USDT"),
  ("CHZBUSD", "CHZ", "BUSD"), ("CHZEUR", "CHZ", "EUR"), ("CHZGBP", "CHZ", "GBP"),
  ("BIFIBNB", "BIFI", "BNB"), ("BIFIBUSD", "BIFI", "BUSD"), ("LINABTC", "LINA", "BTC"),
  ("LINABUSD", "LINA", "BUSD"), ("LINAUSDT", "LINA", "USDT"), ("ADARUB", "ADA", "RUB"),
  ("ENJBRL", "ENJ", "BRL"), ("ENJEUR", "ENJ", "EUR"), ("MATICEUR", "MATIC", "EUR"),
  ("NEOTRY", "NEO", "TRY"), ("PERPBTC", "PERP", "BTC"), ("PERPBUSD", "PERP", "BUSD"),
  ("PERPUSDT", "PERP", "USDT"), ("RAMPBTC", "RAMP", "BTC"), ("RAMPBUSD", "RAMP", "BUSD"),
  ("RAMPUSDT", "RAMP", "USDT"), ("SUPERBTC", "SUPER", "BTC"), ("SUPERBUSD", "SUPER", "BUSD"),
  ("SUPERUSDT", "SUPER", "USDT"), ("CFXBTC", "CFX", "BTC"), ("CFXBUSD", "CFX", "BUSD"),
  ("CFXUSDT", "CFX", "USDT"), ("ENJGBP", "ENJ", "GBP"), ("EOSTRY", "EOS", "TRY"),
  ("LTCGBP", "LTC", "GBP"), ("LUNAEUR", "LUNA", "EUR"), ("RVNTRY", "RVN", "TRY"),
  ("THETAEUR", "THETA", "EUR"), ("XVGBUSD", "XVG", "BUSD"), ("EPSBTC", "EPS", "BTC"),
  ("EPSBUSD", "EPS", "BUSD"), ("EPSUSDT", "EPS", "USDT"), ("AUTOBTC", "AUTO", "BTC"),
  ("AUTOBUSD", "AUTO", "BUSD"), ("AUTOUSDT", "AUTO", "USDT"), ("TKOBTC", "TKO", "BTC"),
  ("TKOBIDR", "TKO", "BIDR"), ("TKOBUSD", "TKO", "BUSD"), ("TKOUSDT", "TKO", "USDT"),
  ("PUNDIXETH", "PUNDIX", "ETH"), ("PUNDIXUSDT", "PUNDIX", "USDT"), ("BTTBRL", "BTT", "BRL"),
  ("BTTEUR", "BTT", "EUR"), ("HOTEUR", "HOT", "EUR"), ("WINEUR", "WIN", "EUR"),
  ("TLMBTC", "TLM", "BTC"), ("TLMBUSD", "TLM", "BUSD"), ("TLMUSDT", "TLM", "USDT"),
  ("1INCHUPUSDT", "1INCHUP", "USDT"), ("1INCHDOWNUSDT", "1INCHDOWN", "USDT"), ("BTGBUSD", "BTG", "BUSD"),
  ("BTGUSDT", "BTG", "USDT"), ("HOTBUSD", "HOT", "BUSD"), ("BNBUAH", "BNB", "UAH"),
  ("ONTTRY", "ONT", "TRY"), ("VETEUR", "VET", "EUR"), ("VETGBP", "VET", "GBP"),
  ("WINBRL", "WIN", "BRL"), ("MIRBTC", "MIR", "BTC"), ("MIRBUSD", "MIR", "BUSD"),
  ("MIRUSDT", "MIR", "USDT"), ("BARBTC", "BAR", "BTC")]

/-- market/pair_mappings.go:1404-1603 -/
def pairTable7 : List (String × String × String) := [
  ("BARBUSD", "BAR", "BUSD"), ("BARUSDT", "BAR", "USDT"), ("FORTHBTC", "FORTH", "BTC"),
  ("FORTHBUSD", "FORTH", "BUSD"), ("FORTHUSDT", "FORTH", "USDT"), ("CAKEGBP", "CAKE", "GBP"),
  ("DOGERUB", "DOGE", "RUB"), ("HOTBRL", "HOT", "BRL"), ("WRXEUR", "WRX", "EUR"),
  ("EZBTC", "EZ", "BTC"), ("EZETH", "EZ", "ETH"), ("BAKEUSDT", "BAKE", "USDT"),
  ("BURGERBUSD", "BURGER", "BUSD"), ("BURGERUSDT", "BURGER", "USDT"), ("SLPBUSD", "SLP", "BUSD"),
  ("SLPUSDT", "SLP", "USDT"), ("TRXAUD", "TRX", "AUD"), ("TRXEUR", "TRX", "EUR"),
  ("VETTRY", "VET", "TRY"), ("SHIBUSDT", "SHIB", "USDT"), ("SHIBBUSD", "SHIB", "BUSD"),
  ("ICPBTC", "ICP", "BTC"), ("ICPBNB", "ICP", "BNB"), ("ICPBUSD", "ICP", "BUSD"),
  ("ICPUSDT", "ICP", "USDT"), ("BTCGYEN", "BTC", "GYEN"), ("USDTGYEN", "USDT", "GYEN"),
  ("SHIBEUR", "SHIB", "EUR"), ("SHIBRUB", "SHIB", "RUB"), ("ETCEUR", "ETC", "EUR"),
  ("ETCBRL", "ETC", "BRL"), ("DOGEBIDR", "DOGE", "BIDR"), ("ARBTC", "AR", "BTC"),
  ("ARBNB", "AR", "BNB"), ("ARBUSD", "AR", "BUSD"), ("ARUSDT", "AR", "USDT"),
  ("POLSBTC", "POLS", "BTC"), ("POLSBNB", "POLS", "BNB"), ("POLSBUSD", "POLS", "BUSD"),
  ("POLSUSDT", "POLS", "USDT"), ("MDXBTC", "MDX", "BTC"), ("MDXBNB", "MDX", "BNB"),
  ("MDXBUSD", "MDX", "BUSD"), ("MDXUSDT", "MDX", "USDT"), ("MASKBNB", "MASK", "BNB"),
  ("MASKBUSD", "MASK", "BUSD"), ("MASKUSDT", "MASK", "USDT"), ("LPTBTC", "LPT", "BTC"),
  ("LPTBNB", "LPT", "BNB"), ("LPTBUSD", "LPT", "BUSD"), ("LPTUSDT", "LPT", "USDT"),
  ("ETHUAH", "ETH", "UAH"), ("MATICBRL", "MATIC", "BRL"), ("SOLEUR", "SOL", "EUR"),
  ("SHIBBRL", "SHIB", "BRL"), ("AGIXBTC", "AGIX", "BTC"), ("ICPEUR", "ICP", "EUR"),
  ("MATICGBP", "MATIC", "GBP"), ("SHIBTRY", "SHIB", "TRY"), ("MATICBIDR", "MATIC", "BIDR"),
  ("MATICRUB", "MATIC", "RUB"), ("NUBTC", "NU", "BTC"), ("NUBNB", "NU", "BNB"),
  ("NUBUSD", "NU", "BUSD"), ("NUUSDT", "NU", "USDT"), ("XVGUSDT", "XVG", "USDT"),
  ("RLCBUSD", "RLC", "BUSD"), ("CELRBUSD", "CELR", "BUSD"), ("ATMBUSD", "ATM", "BUSD"),
  ("ZENBUSD", "ZEN", "BUSD"), ("FTMBUSD", "FTM", "BUSD"), ("THETABUSD", "THETA", "BUSD"),
  ("WINBUSD", "WIN", "BUSD"), ("KAVABUSD", "KAVA", "BUSD"), ("XEMBUSD", "XEM", "BUSD"),
  ("ATABTC", "ATA", "BTC"), ("ATABNB", "ATA", "BNB"), ("ATABUSD", "ATA", "BUSD"),
  ("ATAUSDT", "ATA", "USDT"), ("GTCBTC", "GTC", "BTC"), ("GTCBNB", "GTC", "BNB"),
  ("GTCBUSD", "GTC", "BUSD"), ("GTCUSDT", "GTC", "USDT"), ("TORNBTC", "TORN", "BTC"),
  ("TORNBNB", "TORN", "BNB"), ("TORNBUSD", "TORN", "BUSD"), ("TORNUSDT", "TORN", "USDT"),
  ("MATICTRY", "MATIC", "TRY"), ("ETCGBP", "ETC", "GBP"), ("SOLGBP", "SOL", "GBP"),
  ("BAKEBTC", "BAKE", "BTC"), ("COTIBUSD", "COTI", "BUSD"), ("KEEPBTC", "KEEP", "BTC"),
  ("KEEPBNB", "KEEP", "BNB"), ("KEEPBUSD", "KEEP", "BUSD"), ("KEEPUSDT", "KEEP", "USDT"),
  ("SOLTRY", "SOL", "TRY"), ("RUNEGBP", "RUNE", "GBP"), ("SOLBRL", "SOL", "BRL"),
  ("SCBUSD", "SC", "BUSD"), ("CHRBUSD", "CHR", "BUSD"), ("STMXBUSD", "STMX", "BUSD"),
  ("HNTBUSD", "HNT", "BUSD"), ("FTTBUSD", "FTT", "BUSD"), ("DOCKBUSD", "DOCK", "BUSD"),
  ("ADABIDR", "ADA", "BIDR"), ("ERNBNB", "ERN", "BNB"), ("ERNBUSD", "ERN", "BUSD"),
  ("ERNUSDT", "ERN", "USDT"), ("KLAYBTC", "KLAY", "BTC"), ("KLAYBNB", "KLAY", "BNB"),
  ("KLAYBUSD", "KLAY", "BUSD"), ("KLAYUSDT", "KLAY", "USDT"), ("RUNEEUR", "RUNE", "EUR"),
  ("MATICAUD", "MATIC", "AUD"), ("DOTRUB", "DOT", "RUB"), ("UTKBUSD", "UTK", "BUSD"),
  ("IOTXBUSD", "IOTX", "BUSD"), ("PHAUSDT", "PHA", "USDT"), ("SOLRUB", "SOL", "RUB"),
  ("RUNEAUD", "RUNE", "AUD"), ("BUSDUAH", "BUSD", "UAH"), ("BONDBTC", "BOND", "BTC"),
  ("BONDBNB", "BOND", "BNB"), ("BONDBUSD", "BOND", "BUSD"), ("BONDUSDT", "BOND", "USDT"),
  ("MLNBTC", "MLN", "BTC"), ("MLNBNB", "MLN", "BNB"), ("MLNBUSD", "MLN", "BUSD"),
  ("MLNUSDT", "MLN", "USDT"), ("GRTTRY", "GRT", "TRY"), ("CAKEBRL", "CAKE", "BRL"),
  ("ICPRUB", "ICP", "RUB"), ("DOTAUD", "DOT", "AUD"), ("AAVEBRL", "AAVE", "BRL"),
  ("EOSAUD", "EOS", "AUD"), ("DEXEUSDT", "DEXE", "USDT"), ("LTOBUSD", "LTO", "BUSD"),
  ("ADXBUSD", "ADX", "BUSD"), ("QUICKBTC", "QUICK", "BTC"), ("QUICKBNB", "QUICK", "BNB"),
  ("QUICKBUSD", "QUICK", "BUSD"), ("C98USDT", "C98", "USDT"), ("C98BUSD", "C98", "BUSD"),
  ("C98BNB", "C98", "BNB"), ("C98BTC", "C98", "BTC"), ("CLVBTC", "CLV", "BTC"),
  ("CLVBNB", "CLV", "BNB"), ("CLVBUSD", "CLV", "BUSD"), ("CLVUSDT", "CLV", "USDT"),
  ("QNTBTC", "QNT", "BTC"), ("QNTBNB", "QNT", "BNB"), ("QNTBUSD", "QNT", "BUSD"),
  ("QNTUSDT", "QNT", "USDT"), ("FLOWBTC", "FLOW", "BTC"), ("FLOWBNB", "FLOW", "BNB"),
  ("FLOWBUSD", "FLOW", "BUSD"), ("FLOWUSDT", "FLOW", "USDT"), ("XECBUSD", "XEC", "BUSD"),
  ("AXSBRL", "AXS", "BRL"), ("AXSAUD", "AXS", "AUD"), ("TVKUSDT", "TVK", "USDT"),
  ("MINABTC", "MINA", "BTC"), ("MINABNB", "MINA", "BNB"), ("MINABUSD", "MINA", "BUSD"),
  ("MINAUSDT", "MINA", "USDT"), ("RAYBNB", "RAY", "BNB"), ("RAYBUSD", "RAY", "BUSD"),
  ("RAYUSDT", "RAY", "USDT"), ("FARMBTC", "FARM", "BTC"), ("FARMBNB", "FARM", "BNB"),
  ("FARMBUSD", "FARM", "BUSD"), ("FARMUSDT", "FARM", "USDT"), ("ALPACABTC", "ALPACA", "BTC"),
  ("ALPACABNB", "ALPACA", "BNB"), ("ALPACABUSD", "ALPACA", "BUSD"), ("ALPACAUSDT", "ALPACA", "USDT"),
  ("TLMTRY", "TLM", "TRY"), ("QUICKUSDT", "QUICK", "USDT"), ("ORNBUSD", "ORN", "BUSD"),
  ("MBOXBTC", "MBOX", "BTC"), ("MBOXBNB", "MBOX", "BNB"), ("MBOXBUSD", "MBOX", "BUSD"),
  ("MBOXUSDT", "MBOX", "USDT"), ("VGXBTC", "VGX", "BTC"), ("VGXETH", "VGX", "ETH"),
  ("FORUSDT", "FOR", "USDT"), ("REQUSDT", "REQ", "USDT"), ("GHSTUSDT", "GHST", "USDT"),
  ("TRURUB", "TRU", "RUB"), ("FISBRL", "FIS", "BRL"), ("WAXPUSDT", "WAXP", "USDT"),
  ("WAXPBUSD", "WAXP", "BUSD"), ("WAXPBNB", "WAXP", "BNB"), ("WAXPBTC", "WAXP", "BTC"),
  ("TRIBEBTC", "TRIBE", "BTC"), ("TRIBEBNB", "TRIBE", "BNB"), ("TRIBEBUSD", "TRIBE", "BUSD"),
  ("TRIBEUSDT", "TRIBE", "USDT"), ("GNOUSDT", "GNO", "USDT")]

/-- market/pair_mappings.go:1604-1803 -/
def pairTable8 : List (String × String × String) := [
  ("GNOBUSD", "GNO", "BUSD"), ("GNOBNB", "GNO", "BNB"), ("GNOBTC", "GNO", "BTC"),
  ("ARPATRY", "ARPA", "TRY"), ("PROMBTC", "PROM", "BTC"), ("MTLBUSD", "MTL", "BUSD"),
  ("OGNBUSD", "OGN", "BUSD"), ("XECUSDT", "XEC", "USDT"), ("C98BRL", "C98", "BRL"),
  ("SOLAUD", "SOL", "AUD"), ("XRPBIDR", "XRP", "BIDR"), ("POLYBUSD", "POLY", "BUSD"),
  ("ELFUSDT", "ELF", "USDT"), ("DYDXUSDT", "DYDX", "USDT"), ("DYDXBUSD", "DYDX", "BUSD"),
  ("DYDXBNB", "DYDX", "BNB"), ("DYDXBTC", "DYDX", "BTC"), ("ELFBUSD", "ELF", "BUSD"),
  ("POLYUSDT", "POLY", "USDT"), ("IDEXUSDT", "IDEX", "USDT"), ("VIDTUSDT", "VIDT", "USDT"),
  ("SOLBIDR", "SOL", "BIDR"), ("AXSBIDR", "AXS", "BIDR"), ("BTCUSDP", "BTC", "USDP"),
  ("ETHUSDP", "ETH", "USDP"), ("BNBUSDP", "BNB", "USDP"), ("USDPBUSD", "USDP", "BUSD"),
  ("USDPUSDT", "USDP", "USDT"), ("GALAUSDT", "GALA", "USDT"), ("GALABUSD", "GALA", "BUSD"),
  ("GALABNB", "GALA", "BNB"), ("GALABTC", "GALA", "BTC"), ("FTMBIDR", "FTM", "BIDR"),
  ("ALGOBIDR", "ALGO", "BIDR"), ("CAKEAUD", "CAKE", "AUD"), ("KSMAUD", "KSM", "AUD"),
  ("WAVESRUB", "WAVES", "RUB"), ("SUNBUSD", "SUN", "BUSD"), ("ILVUSDT", "ILV", "USDT"),
  ("ILVBUSD", "ILV", "BUSD"), ("ILVBNB", "ILV", "BNB"), ("ILVBTC", "ILV", "BTC"),
  ("RENBUSD", "REN", "BUSD"), ("YGGUSDT", "YGG", "USDT"), ("YGGBUSD", "YGG", "BUSD"),
  ("YGGBNB", "YGG", "BNB"), ("YGGBTC", "YGG", "BTC"), ("STXBUSD", "STX", "BUSD"),
  ("SYSUSDT", "SYS", "USDT"), ("DFUSDT", "DF", "USDT"), ("SOLUSDC", "SOL", "USDC"),
  ("ARPARUB", "ARPA", "RUB"), ("LTCUAH", "LTC", "UAH"), ("FETBUSD", "FET", "BUSD"),
  ("ARPABUSD", "ARPA", "BUSD"), ("LSKBUSD", "LSK", "BUSD"), ("AVAXBIDR", "AVAX", "BIDR"),
  ("ALICEBIDR", "ALICE", "BIDR"), ("FIDAUSDT", "FIDA", "USDT"), ("FIDABUSD", "FIDA", "BUSD"),
  ("FIDABNB", "FIDA", "BNB"), ("FIDABTC", "FIDA", "BTC"), ("DENTBUSD", "DENT", "BUSD"),
  ("FRONTUSDT", "FRONT", "USDT"), ("CVPUSDT", "CVP", "USDT"), ("AGLDBTC", "AGLD", "BTC"),
  ("AGLDBNB", "AGLD", "BNB"), ("AGLDBUSD", "AGLD", "BUSD"), ("AGLDUSDT", "AGLD", "USDT"),
  ("RADBTC", "RAD", "BTC"), ("RADBNB", "RAD", "BNB"), ("RADBUSD", "RAD", "BUSD"),
  ("RADUSDT", "RAD", "USDT"), ("UNIAUD", "UNI", "AUD"), ("HIVEBUSD", "HIVE", "BUSD"),
  ("STPTBUSD", "STPT", "BUSD"), ("BETABTC", "BETA", "BTC"), ("BETABNB", "BETA", "BNB"),
  ("BETABUSD", "BETA", "BUSD"), ("BETAUSDT", "BETA", "USDT"), ("SHIBAUD", "SHIB", "AUD"),
  ("RAREBTC", "RARE", "BTC"), ("RAREBNB", "RARE", "BNB"), ("RAREBUSD", "RARE", "BUSD"),
  ("RAREUSDT", "RARE", "USDT"), ("AVAXBRL", "AVAX", "BRL"), ("AVAXAUD", "AVAX", "AUD"),
  ("LUNAAUD", "LUNA", "AUD"), ("TROYBUSD", "TROY", "BUSD"), ("AXSETH", "AXS", "ETH"),
  ("FTMETH", "FTM", "ETH"), ("SOLETH", "SOL", "ETH"), ("SSVBTC", "SSV", "BTC"),
  ("SSVETH", "SSV", "ETH"), ("LAZIOTRY", "LAZIO", "TRY"), ("LAZIOEUR", "LAZIO", "EUR"),
  ("LAZIOBTC", "LAZIO", "BTC"), ("LAZIOUSDT", "LAZIO", "USDT"), ("CHESSBTC", "CHESS", "BTC"),
  ("CHESSBNB", "CHESS", "BNB"), ("CHESSBUSD", "CHESS", "BUSD"), ("CHESSUSDT", "CHESS", "USDT"),
  ("FTMAUD", "FTM", "AUD"), ("FTMBRL", "FTM", "BRL"), ("SCRTBUSD", "SCRT", "BUSD"),
  ("ADXUSDT", "ADX", "USDT"), ("AUCTIONUSDT", "AUCTION", "USDT"), ("CELOBUSD", "CELO", "BUSD"),
  ("FTMRUB", "FTM", "RUB"), ("NUAUD", "NU", "AUD"), ("NURUB", "NU", "RUB"),
  ("REEFTRY", "REEF", "TRY"), ("REEFBIDR", "REEF", "BIDR"), ("SHIBDOGE", "SHIB", "DOGE"),
  ("DARUSDT", "DAR", "USDT"), ("DARBUSD", "DAR", "BUSD"), ("DARBNB", "DAR", "BNB"),
  ("DARBTC", "DAR", "BTC"), ("BNXBTC", "BNX", "BTC"), ("BNXBNB", "BNX", "BNB"),
  ("BNXBUSD", "BNX", "BUSD"), ("BNXUSDT", "BNX", "USDT"), ("RGTUSDT", "RGT", "USDT"),
  ("RGTBTC", "RGT", "BTC"), ("RGTBUSD", "RGT", "BUSD"), ("RGTBNB", "RGT", "BNB"),
  ("LAZIOBUSD", "LAZIO", "BUSD"), ("OXTBUSD", "OXT", "BUSD"), ("MANATRY", "MANA", "TRY"),
  ("ALGORUB", "ALGO", "RUB"), ("SHIBUAH", "SHIB", "UAH"), ("LUNABIDR", "LUNA", "BIDR"),
  ("AUDUSDC", "AUD", "USDC"), ("MOVRBTC", "MOVR", "BTC"), ("MOVRBNB", "MOVR", "BNB"),
  ("MOVRBUSD", "MOVR", "BUSD"), ("MOVRUSDT", "MOVR", "USDT"), ("CITYBTC", "CITY", "BTC"),
  ("CITYBNB", "CITY", "BNB"), ("CITYBUSD", "CITY", "BUSD"), ("CITYUSDT", "CITY", "USDT"),
  ("ENSBTC", "ENS", "BTC"), ("ENSBNB", "ENS", "BNB"), ("ENSBUSD", "ENS", "BUSD"),
  ("ENSUSDT", "ENS", "USDT"), ("SANDETH", "SAND", "ETH"), ("DOTETH", "DOT", "ETH"),
  ("MATICETH", "MATIC", "ETH"), ("ANKRBUSD", "ANKR", "BUSD"), ("SANDTRY", "SAND", "TRY"),
  ("MANABRL", "MANA", "BRL"), ("KP3RUSDT", "KP3R", "USDT"), ("QIUSDT", "QI", "USDT"),
  ("QIBUSD", "QI", "BUSD"), ("QIBNB", "QI", "BNB"), ("QIBTC", "QI", "BTC"),
  ("PORTOBTC", "PORTO", "BTC"), ("PORTOUSDT", "PORTO", "USDT"), ("PORTOTRY", "PORTO", "TRY"),
  ("PORTOEUR", "PORTO", "EUR"), ("POWRUSDT", "POWR", "USDT"), ("POWRBUSD", "POWR", "BUSD"),
  ("AVAXETH", "AVAX", "ETH"), ("SLPTRY", "SLP", "TRY"), ("FISTRY", "FIS", "TRY"),
  ("LRCTRY", "LRC", "TRY"), ("CHRETH", "CHR", "ETH"), ("FISBIDR", "FIS", "BIDR"),
  ("VGXUSDT", "VGX", "USDT"), ("GALAETH", "GALA", "ETH"), ("JASMYUSDT", "JASMY", "USDT"),
  ("JASMYBUSD", "JASMY", "BUSD"), ("JASMYBNB", "JASMY", "BNB"), ("JASMYBTC", "JASMY", "BTC"),
  ("AMPBTC", "AMP", "BTC"), ("AMPBNB", "AMP", "BNB"), ("AMPBUSD", "AMP", "BUSD"),
  ("AMPUSDT", "AMP", "USDT"), ("PLABTC", "PLA", "BTC"), ("PLABNB", "PLA", "BNB"),
  ("PLABUSD", "PLA", "BUSD"), ("PLAUSDT", "PLA", "USDT"), ("PYRBTC", "PYR", "BTC"),
  ("PYRBUSD", "PYR", "BUSD"), ("PYRUSDT", "PYR", "USDT"), ("RNDRBTC", "RNDR", "BTC"),
  ("RNDRUSDT", "RNDR", "USDT"), ("RNDRBUSD", "RNDR", "BUSD"), ("ALCXBTC", "ALCX", "BTC"),
  ("ALCXBUSD", "ALCX", "BUSD"), ("ALCXUSDT", "ALCX", "USDT"), ("SANTOSBTC", "SANTOS", "BTC"),
  ("SANTOSUSDT", "SANTOS", "USDT"), ("SANTOSBRL", "SANTOS", "BRL"), ("SANTOSTRY", "SANTOS", "TRY"),
  ("MCBTC", "MC", "BTC"), ("MCBUSD", "MC", "BUSD"), ("MCUSDT", "MC", "USDT"),
  ("BELTRY", "BEL", "TRY"), ("COCOSBUSD", "COCOS", "BUSD")]

/-- market/pair_mappings.go:1804-1954 -/
def pairTable9 : List (String × String × String) := [
  ("DENTTRY", "DENT", "TRY"), ("ENJTRY", "ENJ", "TRY"), ("NEORUB", "NEO", "RUB"),
  ("SANDAUD", "SAND", "AUD"), ("SLPBIDR", "SLP", "BIDR"), ("ANYBTC", "ANY", "BTC"),
  ("ANYBUSD", "ANY", "BUSD"), ("ANYUSDT", "ANY", "USDT"), ("BICOBTC", "BICO", "BTC"),
  ("BICOBUSD", "BICO", "BUSD"), ("BICOUSDT", "BICO", "USDT"), ("FLUXBTC", "FLUX", "BTC"),
  ("FLUXBUSD", "FLUX", "BUSD"), ("FLUXUSDT", "FLUX", "USDT"), ("ALICETRY", "ALICE", "TRY"),
  ("FXSUSDT", "FXS", "USDT"), ("GALABRL", "GALA", "BRL"), ("GALATRY", "GALA", "TRY"),
  ("LUNATRY", "LUNA", "TRY"), ("REQBUSD", "REQ", "BUSD"), ("SANDBRL", "SAND", "BRL"),
  ("MANABIDR", "MANA", "BIDR"), ("SANDBIDR", "SAND", "BIDR"), ("VOXELBTC", "VOXEL", "BTC"),
  ("VOXELBNB", "VOXEL", "BNB"), ("VOXELBUSD", "VOXEL", "BUSD"), ("VOXELUSDT", "VOXEL", "USDT"),
  ("COSBUSD", "COS", "BUSD"), ("CTXCBUSD", "CTXC", "BUSD"), ("FTMTRY", "FTM", "TRY"),
  ("MANABNB", "MANA", "BNB"), ("MINATRY", "MINA", "TRY"), ("XTZTRY", "XTZ", "TRY"),
  ("HIGHBTC", "HIGH", "BTC"), ("HIGHBUSD", "HIGH", "BUSD"), ("HIGHUSDT", "HIGH", "USDT"),
  ("CVXBTC", "CVX", "BTC"), ("CVXBUSD", "CVX", "BUSD"), ("CVXUSDT", "CVX", "USDT"),
  ("PEOPLEBTC", "PEOPLE", "BTC"), ("PEOPLEBUSD", "PEOPLE", "BUSD"), ("PEOPLEUSDT", "PEOPLE", "USDT"),
  ("OOKIBUSD", "OOKI", "BUSD"), ("OOKIUSDT", "OOKI", "USDT"), ("COCOSTRY", "COCOS", "TRY"),
  ("GXSBNB", "GXS", "BNB"), ("LINKBNB", "LINK", "BNB"), ("LUNAETH", "LUNA", "ETH"),
  ("MDTBUSD", "MDT", "BUSD"), ("NULSBUSD", "NULS", "BUSD"), ("SPELLBTC", "SPELL", "BTC"),
  ("SPELLUSDT", "SPELL", "USDT"), ("SPELLBUSD", "SPELL", "BUSD"), ("USTBTC", "UST", "BTC"),
  ("USTBUSD", "UST", "BUSD"), ("USTUSDT", "UST", "USDT"), ("JOEBTC", "JOE", "BTC"),
  ("JOEBUSD", "JOE", "BUSD"), ("JOEUSDT", "JOE", "USDT"), ("ATOMETH", "ATOM", "ETH"),
  ("DUSKBUSD", "DUSK", "BUSD"), ("EGLDETH", "EGLD", "ETH"), ("ICPETH", "ICP", "ETH"),
  ("LUNABRL", "LUNA", "BRL"), ("LUNAUST", "LUNA", "UST"), ("NEARETH", "NEAR", "ETH"),
  ("ROSEBNB", "ROSE", "BNB"), ("VOXELETH", "VOXEL", "ETH"), ("ALICEBNB", "ALICE", "BNB"),
  ("ATOMTRY", "ATOM", "TRY"), ("ETHUST", "ETH", "UST"), ("GALAAUD", "GALA", "AUD"),
  ("LRCBNB", "LRC", "BNB"), ("ONEETH", "ONE", "ETH"), ("OOKIBNB", "OOKI", "BNB"),
  ("ACHBTC", "ACH", "BTC"), ("ACHBUSD", "ACH", "BUSD"), ("ACHUSDT", "ACH", "USDT"),
  ("IMXBTC", "IMX", "BTC"), ("IMXBUSD", "IMX", "BUSD"), ("IMXUSDT", "IMX", "USDT"),
  ("GLMRBTC", "GLMR", "BTC"), ("GLMRBUSD", "GLMR", "BUSD"), ("GLMRUSDT", "GLMR", "USDT"),
  ("ATOMBIDR", "ATOM", "BIDR"), ("DYDXETH", "OOKI", "ETH"), ("ROSEETH", "ROSE", "ETH"),
  ("UMABUSD", "UMA", "BUSD"), ("UNIETH", "UNI", "ETH"), ("XTZETH", "XTZ", "ETH"),
  ("LOKABTC", "LOKA", "BTC"), ("LOKABNB", "LOKA", "BNB"), ("LOKABUSD", "LOKA", "BUSD"),
  ("LOKAUSDT", "LOKA", "USDT"), ("ATOMBRL", "ATOM", "BRL"), ("BNBUST", "BNB", "UST"),
  ("CRVETH", "CRV", "ETH"), ("HIGHBNB", "HIGH", "BNB"), ("NEARRUB", "NEAR", "RUB"),
  ("ROSETRY", "ROSE", "TRY"), ("SCRTUSDT", "SCRT", "USDT"), ("API3BTC", "API3", "BTC"),
  ("API3BUSD", "API3", "BUSD"), ("API3USDT", "API3", "USDT"), ("BTTCUSDT", "BTTC", "USDT"),
  ("BTTCUSDC", "BTTC", "USDC"), ("BTTCTRY", "BTTC", "TRY"), ("ACABTC", "ACA", "BTC"),
  ("ACABUSD", "ACA", "BUSD"), ("ACAUSDT", "ACA", "USDT"), ("ANCBTC", "ANC", "BTC"),
  ("ANCBUSD", "ANC", "BUSD"), ("ANCUSDT", "ANC", "USDT"), ("BDOTDOT", "BDOT", "DOT"),
  ("XNOBTC", "XNO", "BTC"), ("XNOETH", "XNO", "ETH"), ("XNOBUSD", "XNO", "BUSD"),
  ("XNOUSDT", "XNO", "USDT"), ("COSTRY", "COS", "TRY"), ("KAVAETH", "KAVA", "ETH"),
  ("MCBNB", "MC", "BNB"), ("ONETRY", "ONE", "TRY"), ("WOOBTC", "WOO", "BTC"),
  ("WOOBNB", "WOO", "BNB"), ("WOOBUSD", "WOO", "BUSD"), ("WOOUSDT", "WOO", "USDT"),
  ("CELRETH", "CELR", "ETH"), ("PEOPLEBNB", "PEOPLE", "BNB"), ("SLPBNB", "SLP", "BNB"),
  ("SPELLBNB", "SPELL", "BNB"), ("SPELLTRY", "SPELL", "TRY"), ("TFUELBUSD", "TFUEL", "BUSD"),
  ("AXSTRY", "AXS", "TRY"), ("DARTRY", "DAR", "TRY"), ("NEARTRY", "NEAR", "TRY"),
  ("IDEXBNB", "IDEX", "BNB"), ("ALPINEEUR", "ALPINE", "EUR"), ("ALPINETRY", "ALPINE", "TRY"),
  ("ALPINEUSDT", "ALPINE", "USDT"), ("ALPINEBTC", "ALPINE", "BTC"), ("TUSDT", "T", "USDT"),
  ("TBUSD", "T", "BUSD"), ("API3BNB", "API3", "BNB"), ("BETAETH", "BETA", "ETH"),
  ("INJTRY", "INJ", "TRY"), ("TLMBNB", "TLM", "BNB"), ("ASTRBUSD", "ASTR", "BUSD"),
  ("ASTRUSDT", "ASTR", "USDT"), ("API3TRY", "API3", "TRY"), ("GLMRBNB", "GLMR", "BNB"),
  ("MBOXTRY", "MBOX", "TRY")]

/-- market/pair_mappings.go:3-1955, the literal in source order. -/
def pairTable : List (String × String × String) :=
  pairTable0 ++ pairTable1 ++ pairTable2 ++ pairTable3 ++ pairTable4 ++ pairTable5 ++ pairTable6 ++ pairTable7 ++ pairTable8 ++ pairTable9

/-- An asset with only a symbol. -/
def symbolAsset (s : String) : Asset := ⟨"", s, ""⟩

/-- market/pair_mappings.go:3 `PairMappings[k]`; `none` is a missing key. -/
def pairMapping (k : String) : Option Pair :=
  (pairTable.find? (fun e => e.1 = k)).map (fun e => ⟨symbolAsset e.2.1, symbolAsset e.2.2⟩)

end Finmod
