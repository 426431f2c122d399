/-
Generated by tools/selftest.py: the 1024-byte intermediate values of the scrypt self-test
(pleaseletmein / SodiumChloride / 16 / 8 / 1), as 16 blocks of 16 little-endian words.
These are claims; the kernel checks them in SelfTest.lean.
-/
namespace Scrypt

def selfB0 : List (List Nat) := [[1306403370, 3954074565, 440568689, 2980069926, 1451376991, 1861688383, 3692753964, 3733136838, 226433747, 1124699224, 974831343, 3273582979, 827532005, 1446931503, 3489956987, 756131658],
  [1294433906, 2416327139, 3905319689, 777818359, 840660809, 813374247, 2564506462, 4051249377, 1729633696, 3225913456, 1186456335, 3497955828, 2926640089, 4086572393, 4009929821, 4256301548],
  [860790751, 3369412100, 695896821, 2714906177, 1448520429, 152345215, 4283126919, 2233345496, 3873237027, 5760338, 2833779068, 1159291064, 494475159, 3472525280, 2833966537, 1677616722],
  [2266771797, 3494193047, 3886353717, 3152704967, 2325326638, 2161718402, 1331210436, 499030401, 2627887604, 3865132210, 541491408, 1156973495, 2035374109, 63467913, 980088855, 373724302],
  [83020093, 2495478192, 4051530304, 292830098, 301302063, 2795194373, 4252900164, 484932626, 1740587759, 4082782407, 1234256202, 377894663, 1098513218, 3006464843, 320325484, 1849378569],
  [3913598341, 2439192179, 2518804467, 3905033766, 4044315780, 2312628116, 3729811255, 4140692613, 77473671, 3956205669, 251278861, 4243804947, 4094487569, 3452875648, 2252163543, 4175298121],
  [3391202117, 3839325380, 3805274504, 234883596, 2670441751, 1525412850, 1150810824, 314638449, 1037076050, 1210795134, 3497478144, 2850770671, 3384988721, 4249237981, 3626990189, 895070681],
  [823453324, 2087681412, 2724852928, 894320256, 1620969763, 3706906441, 98912247, 127454496, 856191142, 1735936296, 3471199311, 624008605, 3002156069, 2485993151, 805364839, 3170436218],
  [2398811555, 2947103241, 4180564728, 4061809308, 1001308841, 2585320172, 1213981574, 2127743087, 4042610726, 1441003954, 1221800498, 375960799, 274909710, 2077284702, 3669186315, 4012422522],
  [3600581515, 3032204584, 1089029685, 3445853297, 806572934, 1389680442, 332755657, 2623015615, 1652502533, 2769134524, 1705391574, 3321749869, 2351914013, 1780969323, 2175276624, 592383619],
  [822140871, 109293731, 2479779465, 2487430308, 3866977086, 3430800984, 1656515154, 2444975147, 1021680190, 3531832343, 3110854946, 1959815116, 318530161, 815321696, 1968805374, 1482554421],
  [762306689, 2799951238, 738481230, 892425221, 1288309529, 4043062757, 1883678025, 2280294975, 1011879069, 1075063568, 1357623578, 968447029, 2006643882, 197218370, 2454657613, 3994874399],
  [4190840946, 3099076111, 1850914041, 2090112681, 532751697, 3609310190, 2473893609, 3795147978, 4011243699, 2118055883, 3712228354, 3791177430, 1197083568, 3878098508, 2974004687, 104729334],
  [1051149179, 1974396757, 870182027, 2265479428, 313297314, 704804332, 2998324698, 3474947201, 2879864019, 3149504679, 3317315301, 1905156943, 3653544039, 4238755415, 2846200361, 3226021427],
  [127076969, 3470330840, 2286564598, 3886330260, 891399830, 2022236669, 846923931, 2503604251, 3750731402, 3312897269, 714823572, 1088980033, 2107125451, 3356766927, 3577826218, 235595362],
  [1003680291, 65801348, 3751080903, 3025808609, 2734283896, 3757288421, 933295949, 715382583, 4230052898, 216405239, 3411800100, 591912919, 2290334611, 1905986751, 1756687038, 1482581570]]

def selfB1 : List (List Nat) := [[3982817970, 949764185, 905881497, 4229440118, 1322172276, 3127055943, 3063258131, 1611201603, 50696622, 6918680, 3529283950, 3323734217, 3547914545, 3777028150, 3362787405, 2878424809],
  [985678060, 3698649084, 1371726803, 3272886729, 3545691973, 2983303609, 953886241, 1510422375, 3669122741, 1801035709, 1871456096, 3215825227, 2361141255, 977741934, 2362733076, 450608880],
  [2133574594, 788354756, 1937583960, 833987278, 4104359425, 720455070, 219524649, 2012236266, 4227546739, 3758650683, 1741264677, 2836409620, 2643702807, 1476251530, 1438558260, 2295429115],
  [117411621, 3066223266, 315675394, 221241823, 4226859563, 4063134424, 857797394, 1823702693, 329247169, 2497378303, 629239970, 3890718583, 4088408246, 1368092348, 2760577716, 2600354330],
  [3434745734, 828485797, 1496159371, 1175460886, 2463371446, 3496504418, 389282280, 1115703780, 3985635064, 949386, 3974225642, 3818254909, 3989455811, 1150584358, 1962385218, 127129693],
  [1946613568, 568362364, 3438761461, 1082606282, 1005931285, 1908426919, 129903629, 1569569982, 3085969820, 1219082129, 3791589046, 2035179237, 4204671171, 1401611638, 3582440333, 2902322079],
  [2248429485, 2855968417, 68344701, 57678800, 418937401, 3442168512, 1065748813, 529383563, 1585574300, 1797638284, 3664009458, 3813321330, 3950028465, 336656194, 1162799095, 1892540847],
  [15299803, 617776269, 3028233712, 2670137637, 4108943058, 1507554434, 1418215245, 861359396, 3243258601, 1886422013, 3263602723, 3499665697, 1313030004, 3073819339, 288708010, 700002114],
  [1190775132, 3136538865, 1924995911, 200280794, 4057421344, 1633852586, 3130758102, 1725069716, 4092836923, 2096095091, 3827395747, 986924823, 1379765234, 418328377, 1849102734, 1228181875],
  [2220547119, 2126217611, 1755014080, 3186211451, 1636321053, 1643341903, 1329411844, 2147286187, 2180539599, 358070666, 43962529, 4180751106, 152964655, 936439159, 2866543283, 4003697144],
  [730372164, 2826414028, 3416963631, 2560557050, 1467041234, 3120569526, 4251810221, 2871583582, 3188959130, 1349529466, 2157166024, 2247173336, 1928665415, 2768327937, 2485790501, 3824403040],
  [2801929830, 2566746029, 1793871957, 3933511904, 1923878901, 730945507, 1680724088, 3754284730, 777894254, 3719388954, 2045885845, 4016769754, 1079710161, 2242257109, 384324122, 1590890915],
  [2047187346, 799657965, 3323751511, 1509045874, 4275885132, 3634773044, 1379150464, 347389776, 1397058915, 314101033, 2637626995, 810671154, 292548879, 1202099281, 2710002023, 3254972378],
  [4107732362, 137957594, 1063999057, 4091827636, 612251902, 2695017076, 2457877868, 1238831136, 3316152822, 1206086726, 2076723493, 1378313644, 1808884302, 2305194351, 3800588501, 3287345610],
  [3398168940, 3216505547, 2402659420, 1096521419, 1033299578, 298373906, 3385937688, 728481475, 2958711774, 957517802, 3101582964, 2037090747, 788835829, 4041516296, 536575378, 3656744952],
  [2670256012, 2772049999, 2411393242, 769511380, 838682880, 1884495715, 3928945577, 1672845891, 886433483, 2904707953, 738917341, 3891711444, 3958608162, 3480729555, 3920645561, 3212400868]]

end Scrypt
