import Verif.Props.CandleGroups

/-!
# Resampling against the repository's data (market/candle_test.go)

The first 60 candles of market/test_dataset/candles_1_min are resampled; the result must be the first
candles of candles_5_min, candles_15_min and candles_1_h. These are tests of the model, evaluated by the kernel,
not proofs of any property.
-/

namespace Finmod.Conform
open Go

/-- A candle with decimals read as float64. -/
def cd (t : Int) (o h l c v : ℚ) : Candle := ⟨t, ieee.rnd o, ieee.rnd h, ieee.rnd l, ieee.rnd c, ieee.rnd v⟩

/-- market/test_dataset/candles_1_min:1-60 -/
def oneMin : List Candle := [
  cd 1619827200 (138621/50) (69316/25) (13847/5) (13847/5) (12163371/25000),
  cd 1619827260 (13847/5) (13847/5) (69043/25) (138363/50) (37692003/50000),
  cd 1619827320 (138363/50) (277489/100) (138363/50) (69371/25) (31904837/50000),
  cd 1619827380 (55497/20) (138941/50) (277471/100) (138799/50) (44416661/50000),
  cd 1619827440 (277597/100) (55557/20) 2775 (138761/50) (379203/500),
  cd 1619827500 (138763/50) 2776 2771 (277217/100) (30277839/50000),
  cd 1619827560 (277217/100) (69346/25) (55329/20) (27723/10) (65813101/25000),
  cd 1619827620 (27723/10) 2776 (69241/25) (138677/50) (21790487/20000),
  cd 1619827680 (138677/50) (138679/50) (69258/25) (138583/50) (7028859/12500),
  cd 1619827740 (69292/25) 2774 (69249/25) (69249/25) (12605849/25000),
  cd 1619827800 (69249/25) (27769/10) (69241/25) (55507/20) (138332661/100000),
  cd 1619827860 (277527/100) (138817/50) (277257/100) (277499/100) (1024811/1000),
  cd 1619827920 (69378/25) (277649/100) (138679/50) (138733/50) (7129289/12500),
  cd 1619827980 (138733/50) (277793/100) (138637/50) (69332/25) (20212633/50000),
  cd 1619828040 (69332/25) (138779/50) (55447/20) (277323/100) (7566227/12500),
  cd 1619828100 (277323/100) (69331/25) (274341/100) (138207/50) (46876793/12500),
  cd 1619828160 (55283/20) (69229/25) (276371/100) (138293/50) (35423841/50000),
  cd 1619828220 (276579/100) (277159/100) (276579/100) (276991/100) (14885361/50000),
  cd 1619828280 (276991/100) (277379/100) (276991/100) (277157/100) (22792913/50000),
  cd 1619828340 (277139/100) (69362/25) (277101/100) (138681/50) (1319888/3125),
  cd 1619828400 (138699/50) 2775 (277239/100) (277251/100) (38994899/100000),
  cd 1619828460 (5545/2) (138687/50) 2772 (277237/100) (17849963/50000),
  cd 1619828520 (5545/2) (277357/100) 2771 (69318/25) (27923111/100000),
  cd 1619828580 (69318/25) 2774 (277091/100) (277373/100) (23434299/50000),
  cd 1619828640 (69343/25) (69346/25) (27701/10) (69303/25) (5484639/25000),
  cd 1619828700 (277167/100) (69303/25) 2770 (55407/20) (6857543/20000),
  cd 1619828760 (69259/25) 2772 (276863/100) (69234/25) (4294309/5000),
  cd 1619828820 (55391/20) (27739/10) (55391/20) (277259/100) (3852019/10000),
  cd 1619828880 (277227/100) (138669/50) (69228/25) (138551/50) (21667647/50000),
  cd 1619828940 (138561/50) (277271/100) (277019/100) (69292/25) (10209539/25000),
  cd 1619829000 (277169/100) (69316/25) (277127/100) (277263/100) (3670479/12500),
  cd 1619829060 (277263/100) (69316/25) (276863/100) (55373/20) (14303239/50000),
  cd 1619829120 (276863/100) (276997/100) (138423/50) 2769 (792647/2500),
  cd 1619829180 2769 (277047/100) (69217/25) (138483/50) (2417521/12500),
  cd 1619829240 (276967/100) (277053/100) (138451/50) (55391/20) (14390361/50000),
  cd 1619829300 (138477/50) (138537/50) (69198/25) 2769 (29784757/100000),
  cd 1619829360 (276923/100) (69234/25) (276713/100) (276783/100) (18636747/50000),
  cd 1619829420 (138391/50) (138467/50) (69161/25) (276713/100) (11972217/50000),
  cd 1619829480 (276713/100) (55391/20) 2767 (55391/20) (44712037/100000),
  cd 1619829540 (138477/50) (276999/100) (55371/20) (55391/20) (7130921/25000),
  cd 1619829600 (55391/20) (55391/20) (55281/20) (69152/25) (48586891/100000),
  cd 1619829660 (276607/100) (11069/4) (138283/50) (55329/20) (8769191/50000),
  cd 1619829720 (55329/20) (276813/100) 2766 (138323/50) (27371059/100000),
  cd 1619829780 (138323/50) (55349/20) (276553/100) (276673/100) (10461029/50000),
  cd 1619829840 (13834/5) (276793/100) (55317/20) (69168/25) (1560757/5000),
  cd 1619829900 (138341/50) (11075/4) (276553/100) (276699/100) (5509817/20000),
  cd 1619829960 2767 (277103/100) (276699/100) (13851/5) (38153083/100000),
  cd 1619830020 (13851/5) (277213/100) (69229/25) (138591/50) (3677301/10000),
  cd 1619830080 (138591/50) (138607/50) (55407/20) (277181/100) (10168741/50000),
  cd 1619830140 (69293/25) (277287/100) (138543/50) (138543/50) (5830313/20000),
  cd 1619830200 (138543/50) (138613/50) (277011/100) (69253/25) (21207961/100000),
  cd 1619830260 (69253/25) (69253/25) (276701/100) (138367/50) (1269991/6250),
  cd 1619830320 (138367/50) (55347/20) (138219/50) (69146/25) (2135251/6250),
  cd 1619830380 (69146/25) 2766 2763 (69106/25) (24405003/100000),
  cd 1619830440 (276437/100) (138219/50) (55247/20) (55269/20) (3021841/20000),
  cd 1619830500 (55269/20) 2768 (55269/20) (69141/25) (33718037/100000),
  cd 1619830560 (69149/25) (276777/100) (55313/20) (138363/50) (134287/625),
  cd 1619830620 (276727/100) 2768 (138311/50) (69194/25) (3024021/20000),
  cd 1619830680 (55351/20) (276793/100) (276739/100) (69189/25) (8244521/50000),
  cd 1619830740 (69189/25) (276933/100) (276737/100) (11075/4) (1293979/5000)]

/-- market/test_dataset/candles_5_min:1-12 -/
def fiveMin : List Candle := [
  cd 1619827200 (138621/50) (138941/50) (69043/25) (138761/50) (176260543/50000),
  cd 1619827500 (138763/50) 2776 (55329/20) (69249/25) (107882957/20000),
  cd 1619827800 (69249/25) (277793/100) (69241/25) (277323/100) (79760631/20000),
  cd 1619828100 (277323/100) (69362/25) (274341/100) (138681/50) (56345499/10000),
  cd 1619828400 (138699/50) 2775 (27701/10) (69303/25) (17142509/10000),
  cd 1619828700 (277167/100) (27739/10) (276863/100) (69292/25) (48573507/20000),
  cd 1619829000 (277169/100) (69316/25) (138423/50) (55391/20) (3444927/2500),
  cd 1619829300 (138477/50) (138537/50) (69161/25) (55391/20) (82119203/50000),
  cd 1619829600 (55391/20) (55391/20) (55281/20) (69168/25) (14563353/10000),
  cd 1619829900 (138341/50) (277287/100) (276553/100) (138543/50) (6078569/4000),
  cd 1619830200 (138543/50) (138613/50) (55247/20) (55269/20) (115206041/100000),
  cd 1619830500 (55269/20) (276933/100) (55269/20) (11075/4) (28173171/25000)]

/-- market/test_dataset/candles_15_min:1-4 -/
def quarters : List Candle := [
  cd 1619827200 (138621/50) (138941/50) (69043/25) (277323/100) (645369513/50000),
  cd 1619828100 (277323/100) 2775 (274341/100) (69292/25) (195549523/20000),
  cd 1619829000 (277169/100) (69316/25) (55281/20) (69168/25) (55958627/12500),
  cd 1619829900 (138341/50) (277287/100) (55247/20) (11075/4) (7597259/2000)]

/-- market/test_dataset/candles_1_h:1-1 -/
def hour : List Candle := [
  cd 1619827200 (138621/50) (138941/50) (274341/100) (11075/4) (3096018607/100000)]

/-- Refused with an error. -/
def refused : Res (List Candle) → Bool
  | .err _ _ => true
  | _ => false

-- candle_test.go:22-37
example : modifyInterval ieee utcMinute oneMin 5 = .ok fiveMin := by decide +kernel
example : modifyInterval ieee utcMinute oneMin 15 = .ok quarters := by decide +kernel
example : modifyInterval ieee utcMinute oneMin 60 = .ok hour := by decide +kernel

-- candle_test.go:50-71
example : refused (modifyInterval ieee utcMinute fiveMin 2) = true := by decide +kernel
example : refused (modifyInterval ieee utcMinute quarters 1) = true := by decide +kernel
example : modifyInterval ieee utcMinute fiveMin 15 = .ok quarters := by decide +kernel
example : refused (modifyInterval ieee utcMinute fiveMin 16) = true := by decide +kernel

end Finmod.Conform
