import Verif.Lemmas.Bech32

/-!
# Remainders of monomials

Tables for the proof that four mistyped characters are noticed (C147); generated. `Lemmas/Bech32Four.lean` checks in the kernel that they are what they are said to be;
nothing is assumed of them.
-/
namespace Verif.Bech32.Four

/-- a search tree -/
inductive Tree where
  | l
  | n (a : Tree) (v : Nat) (b : Tree)

/-- is the number in the tree? -/
noncomputable def Tree.mem (s : Tree) : Nat → Bool :=
  Tree.rec (fun _ => false) (fun _ v _ ma mb x => bif Nat.beq x v then true else bif Nat.ble x v then ma x else mb x) s

open Tree

/-- a leaf -/
def t (v : Nat) : Tree := n l v l

/-- the remainders of the multiples of the power 0 -/
def row0 : List Nat := [1, 2, 3, 4, 5, 6, 7, 8, 9, 10, 11, 12, 13, 14, 15, 16, 17, 18, 19, 20, 21, 22, 23, 24, 25, 26, 27, 28, 29, 30, 31]

/-- the remainders of the multiples of the power 1 -/
def row1 : List Nat := [32, 64, 96, 128, 160, 192, 224, 256, 288, 320, 352, 384, 416, 448, 480, 512, 544, 576, 608, 640, 672, 704, 736, 768, 800, 832, 864, 896, 928, 960, 992]

/-- the remainders of the multiples of the power 2 -/
def row2 : List Nat := [1024, 2048, 3072, 4096, 5120, 6144, 7168, 8192, 9216, 10240, 11264, 12288, 13312, 14336, 15360, 16384, 17408, 18432, 19456, 20480, 21504, 22528, 23552, 24576, 25600, 26624, 27648, 28672, 29696, 30720, 31744]

/-- the remainders of the multiples of the power 3 -/
def row3 : List Nat := [32768, 65536, 98304, 131072, 163840, 196608, 229376, 262144, 294912, 327680, 360448, 393216, 425984, 458752, 491520, 524288, 557056, 589824, 622592, 655360, 688128, 720896, 753664, 786432, 819200, 851968, 884736, 917504, 950272, 983040, 1015808]

/-- the remainders of the multiples of the power 4 -/
def row4 : List Nat := [1048576, 2097152, 3145728, 4194304, 5242880, 6291456, 7340032, 8388608, 9437184, 10485760, 11534336, 12582912, 13631488, 14680064, 15728640, 16777216, 17825792, 18874368, 19922944, 20971520, 22020096, 23068672, 24117248, 25165824, 26214400, 27262976, 28311552, 29360128, 30408704, 31457280, 32505856]

/-- the remainders of the multiples of the power 5 -/
def row5 : List Nat := [33554432, 67108864, 100663296, 134217728, 167772160, 201326592, 234881024, 268435456, 301989888, 335544320, 369098752, 402653184, 436207616, 469762048, 503316480, 536870912, 570425344, 603979776, 637534208, 671088640, 704643072, 738197504, 771751936, 805306368, 838860800, 872415232, 905969664, 939524096, 973078528, 1006632960, 1040187392]

/-- the remainders of the multiples of the power 6 -/
def row6 : List Nat := [996825010, 642813549, 490396127, 513874426, 634080840, 955357079, 60538917, 1027748829, 103310447, 454213040, 544795138, 602090023, 411663765, 95659082, 1054471160, 705979059, 293483777, 205843678, 925809516, 884308809, 266284283, 317060388, 697279126, 391532910, 742131420, 822533891, 174885041, 167200916, 849157926, 799524601, 349016395]

/-- the remainders of the multiples of the power 7 -/
def row7 : List Nat := [534243686, 1027569356, 585670570, 721079480, 892151262, 398834292, 135418642, 132234585, 406213695, 987679637, 621355763, 756773345, 852269191, 270796589, 267644491, 223574683, 310678525, 812387415, 800843057, 665433635, 947806021, 446087407, 88156553, 179488706, 358952612, 932032782, 677009512, 541592442, 1067442716, 494370230, 44078288]

/-- the remainders of the multiples of the power 8 -/
def row8 : List Nat := [69525304, 139009913, 208519233, 277265403, 346186947, 416261250, 485194682, 554529535, 623488455, 692350342, 761311934, 831244548, 900666940, 969070205, 1038485829, 312394999, 381295567, 450354062, 519242934, 35159820, 104636468, 173105269, 242597709, 865318408, 934766896, 1004185969, 1073641033, 588582387, 657576651, 727454346, 796446130]

/-- the remainders of the multiples of the power 9 -/
def row9 : List Nat := [583756141, 394458842, 894017463, 764759229, 257828304, 974633575, 417125130, 196754771, 695292990, 473484169, 1056154340, 640643566, 82057347, 833455924, 325512793, 368114319, 926651362, 41028693, 549020984, 946189874, 447668063, 803684584, 220998021, 508217308, 1015131825, 164114694, 721639531, 870288225, 286581260, 610106811, 110499030]

/-- the remainders of the multiples of the power 10 -/
def row10 : List Nat := [135469217, 270938434, 406137315, 541876868, 677345829, 812274630, 947473255, 311223336, 446692489, 44750186, 179949003, 851478188, 986947085, 585545710, 720744271, 621669456, 757003505, 892067090, 1027130803, 88182484, 223516277, 359120790, 494184247, 931203192, 1066537177, 665270586, 800334235, 399338236, 534671965, 132864958, 267928351]

/-- the remainders of the multiples of the power 11 -/
def row11 : List Nat := [482479578, 964959133, 625350215, 597176883, 1062879209, 438053294, 115221620, 397730159, 192343221, 774961906, 854783784, 875352924, 686743174, 229165249, 292209947, 771319518, 825977604, 343768387, 146763929, 241259757, 312695095, 937774960, 723993258, 978159537, 646941291, 63544364, 520851958, 433436034, 85440600, 542223903, 1016308677]

/-- the remainders of the multiples of the power 12 -/
def row12 : List Nat := [502406922, 963918644, 612770878, 578319201, 1066036331, 453789781, 117331807, 384092130, 186046696, 798031062, 845341660, 882685059, 695118729, 233344951, 270176445, 768159460, 809185774, 347936208, 156175066, 263282053, 306397839, 918906545, 725055931, 992864518, 652211724, 39440946, 531352888, 425040487, 78087533, 539074899, 1037287001]

/-- the remainders of the multiples of the power 13 -/
def row13 : List Nat := [1005602058, 661663252, 478178078, 510679329, 629152811, 956331829, 49295935, 1021318722, 118510408, 462436438, 543194460, 579882851, 425724521, 98591095, 1041245309, 734013860, 271609006, 212862896, 926958266, 900755589, 239089039, 314597009, 691018651, 387989478, 751860460, 810553842, 195056888, 156264135, 849355725, 773867731, 365956569]

/-- the remainders of the multiples of the power 14 -/
def row14 : List Nat := [211140198, 422279660, 364824458, 819124184, 1011313086, 704228916, 627839058, 866455225, 1060155615, 713979733, 639355187, 58186081, 266495751, 442278029, 382279403, 937039995, 995075613, 787571095, 577036273, 118017955, 194867653, 505656911, 313919529, 75437762, 149596324, 492072750, 297914696, 883802394, 943226748, 763803894, 554894992]

/-- the remainders of the multiples of the power 15 -/
def row15 : List Nat := [709253975, 109844391, 751455472, 218933870, 659222841, 192986569, 566683294, 412996092, 853248683, 504481371, 878157068, 361855890, 1071063237, 320695349, 962279266, 825198545, 459922566, 933466230, 501599009, 1008938431, 375748328, 984562200, 283730255, 699553325, 66325882, 792609162, 91757277, 616496195, 251176724, 573762532, 141865139]

/-- the remainders of the multiples of the power 16 -/
def row16 : List Nat := [118769179, 213396799, 195848996, 426039895, 510696524, 366802792, 315142515, 811144615, 927814588, 1021393048, 1005944451, 691916784, 774474219, 629531343, 579970260, 849783630, 900918613, 1042187889, 957005930, 734163225, 752236290, 662330406, 544086589, 50314985, 99350770, 239571926, 156489165, 463168702, 479142565, 388188545, 272043930]

/-- the remainders of the multiples of the power 17 -/
def row17 : List Nat := [1068636863, 804532343, 273033928, 259547335, 818575992, 546066608, 524175887, 477422990, 600244017, 864081401, 204656454, 319587657, 750690294, 1022932286, 55226241, 954822428, 123434403, 387800939, 682575316, 932253659, 136516964, 409288620, 668411155, 614304402, 456101933, 191478501, 886808666, 736488021, 341307626, 68278818, 1000587421]

/-- the remainders of the multiples of the power 18 -/
def row18 : List Nat := [579782315, 386509942, 898067165, 748148933, 236527214, 1000240307, 420524568, 187635082, 698471201, 472300028, 1051230039, 666422607, 87428068, 816931129, 306161554, 349874964, 911502783, 64161634, 559792585, 944600017, 449033594, 793042855, 231348492, 536198814, 1031501877, 150737640, 712168515, 862086747, 300720368, 611043885, 115674246]

/-- the remainders of the multiples of the power 19 -/
def row19 : List Nat := [10936417, 21849282, 32212131, 2026884, 12062181, 22251846, 32860455, 2752264, 9379689, 23370698, 29522859, 3609228, 9564909, 24802894, 31233583, 4710192, 14761809, 17480690, 28072851, 5845684, 16765653, 18110070, 28489239, 7217208, 13156441, 19088634, 25535643, 7392700, 14036445, 20818302, 26954015]

/-- the remainders of the multiples of the power 20 -/
def row20 : List Nat := [349965344, 699177024, 1030788192, 64860288, 385989792, 712059072, 1051534560, 88072448, 300150048, 747862336, 944731488, 115495296, 306077088, 793692608, 999474656, 150726144, 472377888, 559382080, 898331232, 187061888, 536500896, 579522240, 911655648, 230950656, 421006112, 610836288, 817140576, 236566400, 449166240, 666185664, 862528480]

/-- the remainders of the multiples of the power 21 -/
def row21 : List Nat := [9648560, 19297097, 28658425, 14436274, 5209602, 33174779, 23661899, 28094061, 20944861, 9100580, 1696916, 24177119, 31707247, 5675670, 12952358, 31316474, 21946442, 16493235, 6853379, 16883272, 26388472, 2616577, 11850929, 7436183, 14831143, 22480094, 29637998, 11350053, 4065685, 25903980, 18381532]

/-- the remainders of the multiples of the power 22 -/
def row22 : List Nat := [308753920, 617507104, 917069600, 461960768, 166707264, 1061592928, 757180768, 899009952, 670235552, 291218560, 54301312, 773667808, 1014631904, 181621440, 414475456, 1002127168, 702286144, 527783520, 219308128, 540264704, 844431104, 83730464, 379229728, 237957856, 474596576, 719363008, 948415936, 363201696, 130101920, 828927360, 588209024]

/-- the remainders of the multiples of the power 23 -/
def row23 : List Nat := [181314671, 361351390, 524774577, 697808277, 593039866, 1008631115, 919656740, 62876419, 158453612, 372679645, 486016946, 707321494, 551975673, 1067521608, 896512551, 100333350, 255087433, 275988472, 448633751, 745358003, 648275676, 971278957, 858402306, 105225253, 210450506, 332158203, 419623060, 802302384, 622628319, 979100014, 815088897]

/-- the remainders of the multiples of the power 24 -/
def row24 : List Nat := [1008714664, 707503728, 372532696, 105105897, 979110465, 745041817, 276278321, 210188242, 815330426, 648843682, 447959562, 180682299, 920337811, 552556619, 485530595, 420375213, 621914373, 858115293, 255463285, 525181764, 592601324, 895878452, 158975644, 361323903, 697736919, 1067645711, 62732455, 332043414, 802510654, 971059942, 100593998]

/-- the remainders of the multiples of the power 25 -/
def row25 : List Nat := [744469497, 179036923, 653545730, 356771071, 958158598, 535299588, 867677693, 672624087, 71884334, 582782764, 249773269, 1028950312, 285948625, 939486163, 463525930, 36601735, 779209854, 142974332, 618278533, 393059192, 993142913, 499546499, 832162426, 708383312, 107389353, 546500779, 214778706, 1065023151, 321209686, 902894676, 428779437]

/-- the remainders of the multiples of the power 26 -/
def row26 : List Nat := [420710916, 817303848, 698653484, 862855760, 712878164, 64566136, 449493372, 911786409, 793463725, 116379777, 536631941, 87483385, 472214013, 897708753, 747796693, 1051043666, 666250582, 236107386, 385956990, 231441666, 349703942, 1031574570, 611261998, 150824699, 300870911, 944404435, 559545815, 999507115, 578866863, 186930563, 305651591]

/-- the remainders of the multiples of the power 27 -/
def row27 : List Nat := [26372775, 28603502, 2498249, 33049820, 6956667, 4995250, 31347221, 24427921, 15128374, 12634623, 22192984, 9236813, 18783210, 20481315, 11202436, 7961355, 32182700, 30216037, 6251970, 25245655, 1269104, 3490745, 27732254, 17680026, 10464317, 12169972, 19650643, 16091718, 23584993, 21102120, 13866127]

/-- the remainders of the multiples of the power 28 -/
def row28 : List Nat := [843928800, 915312064, 79943968, 1057594240, 222613344, 159848000, 1003111072, 781693472, 484107968, 404307936, 710175488, 295578016, 601062720, 655402080, 358477952, 254763360, 1029846400, 966913184, 200063040, 807860960, 40611328, 111703840, 887432128, 565760832, 334858144, 389439104, 628820576, 514934976, 754719776, 675267840, 443716064]

/-- the remainders of the multiples of the power 29 -/
def row29 : List Nat := [630627036, 465383601, 1043049069, 905896267, 275282839, 776196602, 198527782, 997844630, 519011402, 549770791, 89279739, 243730397, 722574593, 356136812, 816623024, 645393445, 65107705, 1036704916, 408700488, 327748974, 908040114, 137641439, 765634307, 487459507, 949522543, 112409090, 589668574, 686877688, 224817444, 860740425, 383467925]

/-- the remainders of the multiples of the power 30 -/
def row30 : List Nat := [1050130270, 791636917, 297327851, 249230947, 810369341, 569744854, 526527112, 497143270, 590772920, 848209491, 202969357, 326843269, 770477275, 1012158512, 46393198, 970145740, 121931922, 385635449, 678159143, 923388335, 161382129, 405185050, 649139524, 611512874, 451233140, 190683551, 902442689, 715654217, 339718935, 92762108, 990959778]

/-- the remainders of the multiples of the power 31 -/
def row31 : List Nat := [104561291, 207803446, 173649597, 415566917, 519993038, 346544243, 312255224, 831133834, 934371841, 1038666940, 1003730487, 693048527, 796159556, 623755513, 588692082, 865120532, 900451231, 1072850210, 969482153, 727039313, 762234842, 657942887, 554439660, 35301790, 69325589, 242777512, 138610467, 450864603, 484761424, 381514221, 277220198]

/-- the remainders of the multiples of the power 32 -/
def row32 : List Nat := [441813183, 883626327, 788437480, 994222727, 555166264, 266974160, 364657519, 638926894, 1010878609, 314462585, 149674438, 492298921, 117598742, 704443390, 866745153, 506078300, 75476195, 713110795, 819248564, 627607259, 1060965988, 298030988, 194387763, 943678578, 577432781, 211055909, 381812122, 58574581, 422071882, 936826786, 763584285]

/-- the remainders of the multiples of the power 33 -/
def row33 : List Nat := [305687157, 610596323, 912039830, 449400774, 150021555, 1051572773, 748015696, 898023084, 666817753, 300043087, 64627002, 793768298, 1031248671, 187368585, 420703996, 1000175736, 698683917, 536448411, 230811630, 559167422, 862739915, 87081565, 386443304, 236701396, 472100001, 712979255, 944200002, 349341970, 116056935, 817265905, 579737220]

/-- the remainders of the multiples of the power 34 -/
def row34 : List Nat := [19213007, 14307518, 33520241, 27297109, 8761242, 24827371, 6291236, 30476931, 15999052, 17521213, 3043570, 7442390, 22324505, 11263848, 26146215, 20058150, 1522409, 31998104, 13462103, 9606515, 28819388, 4769229, 23981826, 14883493, 29765738, 3754523, 18637012, 21209072, 6731071, 26857294, 12379521]

/-- the remainders of the multiples of the power 35 -/
def row35 : List Nat := [614816224, 457840576, 1072647712, 873507488, 280359744, 794475872, 201319552, 975261792, 511969664, 560678816, 97394240, 238156480, 714384160, 360443136, 836678880, 641860800, 48717088, 1023939328, 430787296, 307408480, 922220416, 152615328, 767418432, 476271776, 952503616, 120144736, 596384384, 678690304, 215394272, 859433408, 396144672]

/-- the remainders of the multiples of the power 36 -/
def row36 : List Nat := [418369758, 835421589, 690246987, 856918787, 737958877, 47713942, 439869000, 917967654, 777569272, 125605555, 529745517, 94672933, 491473147, 879697328, 746638702, 1064182636, 662827954, 245737209, 373978663, 209561711, 345143473, 1035349498, 626654500, 165228618, 288809108, 940750303, 553477377, 986364745, 572877719, 184631004, 334425602]

/-- the remainders of the multiples of the power 37 -/
def row37 : List Nat := [1041838567, 774300622, 272618025, 239953596, 810833755, 543917426, 510833813, 479128689, 580378006, 849874879, 212942424, 314804941, 752532266, 1021667587, 50092260, 956955851, 118541612, 388964101, 691416802, 927242871, 157133712, 425884089, 662390878, 629608634, 463348061, 195162996, 901300883, 734688774, 366168033, 99390920, 1005954095]

/-- the remainders of the multiples of the power 38 -/
def row38 : List Nat := [401321387, 760470358, 985167613, 171382693, 501004814, 660917491, 814702936, 342764138, 59082689, 960360764, 785800343, 509165007, 162697316, 856352409, 618744626, 684249588, 1059290207, 94046882, 309372681, 587187793, 890530810, 262937863, 407351468, 1017576350, 726488629, 301277384, 102665571, 915532859, 561660304, 465713005, 204053190]

/-- the remainders of the multiples of the power 39 -/
def row39 : List Nat := [487415650, 949919716, 630440070, 589937384, 1042605450, 464987404, 112884334, 383250672, 198881170, 776564500, 860106870, 905857560, 687019386, 224450044, 275614366, 766461385, 815930027, 355588653, 138184015, 243728161, 327917635, 907567301, 722812839, 997766457, 645261915, 65415901, 518747583, 407965649, 89936051, 550473781, 1036177239]

/-- the remainders of the multiples of the power 40 -/
def row40 : List Nat := [605571082, 438613012, 1044184094, 877225985, 273752075, 778951701, 175477791, 981922818, 513719304, 547504150, 79300636, 248486915, 718787593, 350955543, 821256221, 655182852, 51708942, 1026160656, 422686746, 323232773, 928803855, 157323281, 762894363, 495695878, 965996556, 128912402, 599213080, 700633095, 232429581, 870736915, 402533401]

/-- the remainders of the multiples of the power 41 -/
def row41 : List Nat := [256765342, 471858965, 324145803, 942399267, 929444541, 607395894, 729402792, 574857062, 755921656, 1046241395, 823234029, 443039813, 354790875, 108511056, 154817230, 377961452, 432723570, 177784057, 97855847, 783082703, 568396113, 850598874, 1040119364, 885302410, 998852884, 685464479, 664188417, 217021353, 60986935, 284198076, 532506914]

/-- the remainders of the multiples of the power 42 -/
def row42 : List Nat := [707163109, 105662186, 745157903, 210545908, 648732433, 180415006, 551983611, 420338113, 858499620, 524394283, 896003278, 360805685, 1067910864, 332215263, 971718714, 815765378, 448390247, 919851368, 485859981, 1007893366, 372590739, 979336604, 276369017, 697454147, 62143910, 803080361, 100170572, 622781111, 255365458, 592618589, 158652344]

/-- the remainders of the multiples of the power 43 -/
def row43 : List Nat := [185684059, 347210911, 530797764, 694421783, 578115916, 1037438344, 919035347, 39326215, 155796060, 384439960, 503006915, 725359376, 539839307, 1066278799, 882855892, 77898030, 263582069, 269919665, 453506538, 767600697, 651294818, 963816614, 845413629, 117224233, 233694066, 307148726, 425715693, 798538302, 613018213, 992657057, 809234170]

/-- the remainders of the multiples of the power 44 -/
def row44 : List Nat := [132203816, 223489616, 179530616, 406084009, 534060161, 359036921, 310850257, 812128082, 931746426, 1027225858, 987462698, 677138171, 800918483, 621699243, 586098051, 851749805, 891678341, 1066829309, 947372245, 720433668, 756135724, 664984660, 541301116, 44875007, 88996311, 268341935, 136304519, 446227798, 494510206, 399166214, 271289902]

/-- the remainders of the multiples of the power 45 -/
def row45 : List Nat := [554859743, 313810327, 866525512, 627580679, 75129816, 937181840, 382615119, 441760558, 994494449, 148956857, 703765094, 1060938793, 506386678, 763951550, 211453281, 883520380, 364580771, 639446763, 118444596, 297888891, 819138724, 58012140, 577195315, 788383826, 267367565, 1011455429, 492562714, 194369365, 713534346, 421628610, 942929437]

/-- the remainders of the multiples of the power 46 -/
def row46 : List Nat := [140245331, 279172751, 418918364, 558304318, 689763693, 837081777, 968827874, 303962197, 440787206, 45993690, 182859657, 861475947, 990047544, 603636452, 731986871, 606646403, 745753040, 881550860, 1020305247, 91208893, 221529582, 365718066, 496472929, 909551830, 1047351685, 647331417, 785286922, 393323752, 522870203, 131232359, 260672308]

/-- the remainders of the multiples of the power 47 -/
def row47 : List Nat := [366883738, 691593789, 1021759911, 49669491, 388749033, 734857038, 1041446100, 99315407, 271932757, 752061682, 957202280, 119442364, 314619942, 774269313, 1006131739, 156433598, 478990116, 543825539, 901000473, 195500493, 511257175, 580910064, 927058026, 213488241, 426222059, 629239884, 811549654, 239892226, 462570648, 661951807, 850044581]

/-- the remainders of the multiples of the power 48 -/
def row48 : List Nat := [550817520, 329858281, 863891993, 634845650, 84031266, 914343227, 380308427, 457004941, 1005164925, 143944548, 675325332, 1055632991, 507469999, 759337654, 227957830, 889097786, 338313418, 660058835, 126057507, 287864808, 838646040, 42027777, 576030193, 801364407, 253171527, 1013638494, 482225070, 169156709, 717352597, 431758476, 963170940]

/-- the remainders of the multiples of the power 49 -/
def row49 : List Nat := [814595251, 856684879, 58869244, 916182686, 102132269, 93597649, 890868578, 1059294261, 263073926, 204240250, 1017235913, 163076779, 959833624, 985113572, 171581271, 785848387, 509256944, 500752652, 760569279, 407686877, 683766382, 725825426, 466520865, 301241462, 561588421, 586902841, 309776778, 661603048, 400752219, 341883815, 619513620]

/-- the remainders of the multiples of the power 50 -/
def row50 : List Nat := [115459854, 230895420, 186837042, 420895601, 536321151, 349533261, 305443651, 817633259, 912117989, 1031747799, 1000275929, 699026586, 793480084, 610886566, 579380392, 862759670, 898461176, 1051690442, 944652996, 712700295, 748369545, 666492603, 559421877, 64011549, 87128595, 236163617, 150099247, 449242732, 472326498, 386255184, 300158558]

/-- the remainders of the multiples of the power 51 -/
def row51 : List Nat := [16922655, 9728023, 26626056, 19416071, 2784280, 29111312, 12454927, 13937678, 30839825, 4250649, 21160966, 33351689, 16699414, 23631902, 6987777, 27875356, 11231235, 20785163, 4132884, 8461339, 25371652, 1403916, 18306067, 25031698, 8375309, 32080901, 15449114, 5615637, 22513674, 12697602, 29620253]

/-- the remainders of the multiples of the power 52 -/
def row52 : List Nat := [541524960, 311296736, 852033792, 621314272, 89096960, 931561984, 398557664, 446005696, 986874400, 136020768, 677150912, 1067254048, 534381248, 756220864, 223608864, 892011392, 359399520, 665125216, 132252288, 270762848, 811892864, 44925312, 585794144, 801014336, 268009888, 1026588832, 494371648, 179700384, 720437568, 406323264, 947848096]

/-- the remainders of the multiples of the power 53 -/
def row53 : List Nat := [586423987, 401094767, 891037404, 760541406, 262205037, 985450673, 407426562, 171525525, 684546854, 500268538, 1059414857, 661501259, 93957112, 814058788, 309433239, 342273795, 915583408, 59676524, 561678815, 959602653, 465977710, 786065330, 204372225, 509602454, 1017902117, 163042041, 725863498, 856365640, 301925627, 618865191, 102186132]

/-- the remainders of the multiples of the power 54 -/
def row54 : List Nat := [268297057, 494921698, 310510723, 947646180, 931532165, 621021446, 721021543, 585366760, 756948873, 1067195146, 811726955, 446173708, 359002477, 132642286, 135927439, 398941648, 406503089, 179878450, 88430931, 800895796, 541151317, 851662038, 1027520439, 891593016, 987316825, 677070554, 665232827, 224350172, 44215485, 270575678, 534596447]

/-- the remainders of the multiples of the power 55 -/
def row55 : List Nat := [1009232901, 709842954, 375976975, 109745172, 984430609, 751160350, 283271195, 218212353, 824574980, 659484683, 459889678, 193674261, 934055952, 566518815, 501467162, 412307458, 615840775, 853280776, 251372557, 505005078, 574515219, 878091292, 141635609, 361953283, 699749382, 1071489033, 66718732, 320367639, 792707090, 962016285, 91265048]

/-- the remainders of the multiples of the power 56 -/
def row56 : List Nat := [726812249, 104082875, 761687010, 208165727, 658119942, 173831908, 554578109, 415537079, 865522158, 519092748, 899873877, 346868968, 1073646257, 312009043, 969582346, 831072871, 450587710, 935135196, 485441925, 1038184760, 380843873, 1003838595, 277289690, 692960720, 35650441, 796495979, 69981746, 623240847, 242720982, 588368692, 138644845]

/-- the remainders of the multiples of the power 57 -/
def row57 : List Nat := [630712283, 465530559, 1042844004, 905641079, 275585964, 776311496, 198341907, 997317831, 518404892, 550417016, 89740707, 243998896, 723306347, 355749391, 816032212, 645078414, 65337941, 1036809009, 408655082, 327803385, 907937314, 137793350, 765552797, 486719817, 949298834, 113094646, 589973549, 687357246, 225434341, 860312449, 382776410]

/-- the remainders of the multiples of the power 58 -/
def row58 : List Nat := [1052252094, 795126389, 299679179, 240734691, 820069981, 557710230, 528870440, 480675782, 572428408, 868363699, 226114061, 318756389, 742900123, 1033600080, 52653038, 961350316, 133504274, 371826905, 680638311, 924080975, 162286833, 410054970, 650700420, 636194154, 458463956, 177153823, 876032161, 733142153, 353028919, 81164028, 980312386]

/-- the remainders of the multiples of the power 59 -/
def row59 : List Nat := [63923851, 85650486, 114657981, 145882181, 192846542, 229314675, 241465080, 291724426, 313276929, 343519420, 397858359, 433234127, 438158916, 482888953, 520563314, 542514452, 597261215, 625799458, 646158249, 686285137, 724076506, 771558759, 775056364, 825573790, 855254805, 875539880, 937478947, 965000667, 978049872, 1017008621, 1062287206]

/-- the remainders of the multiples of the power 60 -/
def row60 : List Nat := [42370770, 84740269, 126586495, 144609626, 169351048, 227777015, 253042469, 287941277, 330245199, 337947184, 379727074, 431436743, 456242453, 481966954, 507297208, 551010355, 575751905, 635095198, 660360780, 675893609, 718264251, 759454148, 801300246, 838754990, 863560828, 888367619, 913698001, 962655220, 1004959014, 1013840729, 1055620491]

/-- the remainders of the multiples of the power 61 -/
def row61 : List Nat := [733646322, 133274573, 743118399, 225653434, 650755912, 176335223, 557327493, 410411133, 869068175, 529005488, 876443202, 352670407, 1052761909, 318032138, 961430776, 820798675, 458680609, 924712734, 480735980, 1033852521, 371579803, 980340132, 299122774, 681182382, 52463964, 795582307, 80810641, 636040724, 240368614, 572042713, 161620011]

/-- the remainders of the multiples of the power 62 -/
def row62 : List Nat := [948867771, 587833471, 461845188, 379044055, 773411436, 899571880, 219214355, 758064519, 362919740, 237405688, 916985667, 1001973072, 53901291, 414270767, 541054868, 182110990, 844388789, 701721457, 291371466, 474811353, 616798562, 1061464998, 130693405, 670428809, 528186418, 83644150, 1014160461, 828517982, 166509797, 309038625, 719658138]

/-- the remainders of the multiples of the power 63 -/
def row63 : List Nat := [405086196, 810171105, 678372629, 847311074, 715517718, 46844419, 451925495, 922830276, 790911536, 122388261, 527327441, 92386598, 497330898, 902533063, 770609203, 1049767816, 649539708, 249042281, 385682077, 202563434, 339198110, 1012458891, 612235903, 160655948, 297170360, 970543277, 570183513, 991140526, 590775642, 190423119, 326942651]

/-- the remainders of the multiples of the power 64 -/
def row64 : List Nat := [658560167, 504433998, 961665513, 1008867996, 459460155, 573773778, 91472757, 709111857, 218424470, 878001535, 320203224, 375794349, 824638986, 142026723, 792195908, 109600843, 566801644, 412708101, 1071233442, 984251095, 501919344, 616265625, 66822974, 751587450, 193758429, 853368116, 362645907, 284052198, 934190657, 251611048, 700420879]

/-- the remainders of the multiples of the power 65 -/
def row65 : List Nat := [523513740, 1022908984, 600602036, 736400761, 886094581, 387764033, 136896717, 123284187, 409797975, 1000435939, 613769071, 750632866, 864653358, 273016218, 259115542, 204918975, 318963507, 818842247, 804955403, 668091846, 954624586, 455745534, 69087346, 191887972, 341562856, 932683868, 681807824, 546008861, 1069498513, 477312293, 54991529]

/-- the remainders of the multiples of the power 66 -/
def row66 : List Nat := [408683128, 816611833, 686850945, 860718043, 722567587, 65077794, 465371226, 908034751, 776175815, 112395078, 518979902, 89260388, 487457564, 905871517, 765625061, 1043038327, 645366287, 243728782, 383452150, 224789420, 356123092, 1036681813, 630620205, 137626312, 275251376, 949519153, 549749065, 997818643, 589661035, 198508778, 327746194]

/-- the rows -/
def rows : List (List Nat) := [row0, row1, row2, row3, row4, row5, row6, row7, row8, row9, row10, row11, row12, row13, row14, row15, row16, row17, row18, row19, row20, row21, row22, row23, row24, row25, row26, row27, row28, row29, row30, row31, row32, row33, row34, row35, row36, row37, row38, row39, row40, row41, row42, row43, row44, row45, row46, row47, row48, row49, row50, row51, row52, row53, row54, row55, row56, row57, row58, row59, row60, row61, row62, row63, row64, row65, row66]

/-- part of the tree -/
def sub0 : Tree := (n (n (n (n (n (n (t 0) 1 (t 2)) 3 (n (t 4) 5 (t 6))) 7 (n (n (t 8) 9 (t 10)) 11 (n (t 12) 13 (t 14)))) 15 (n (n (n (t 16) 17 (t 18)) 19 (n (t 20) 21 (t 22))) 23 (n (n (t 24) 25 (t 26)) 27 (n (t 28) 29 (t 30))))) 31 (n (n (n (n (t 32) 64 (t 96)) 128 (n (t 160) 192 (t 224))) 256 (n (n (t 288) 320 (t 352)) 384 (n (t 416) 448 (t 480)))) 512 (n (n (n (t 544) 576 (t 608)) 640 (n (t 672) 704 (t 736))) 768 (n (n (t 800) 832 (t 864)) 896 (n (t 928) 960 (t 992)))))) 1024 (n (n (n (n (n (t 2048) 3072 (t 4096)) 5120 (n (t 6144) 7168 (t 8192))) 9216 (n (n (t 10240) 11264 (t 12288)) 13312 (n (t 14336) 15360 (t 16384)))) 17408 (n (n (n (t 18432) 19456 (t 20480)) 21504 (n (t 22528) 23552 (t 24576))) 25600 (n (n (t 26624) 27648 (t 28672)) 29696 (n (t 30720) 31744 (t 32768))))) 39659 (n (n (n (n (t 43872) 47575 (t 53028)) 63340 (n (t 65536) 78070 (t 81768))) 86008 (n (n (t 87008) 95111 (t 98304)) 109085 (n (t 112788) 117328 (t 127052)))) 129152 (n (n (n (t 131072) 132832 (t 147193)) 149038 (n (t 156101) 162800 (t 163840))) 175488 (n (n (t 177364) 182677 (t 195374)) 196601 (n (t 196608) 210345 (t 214168)))))))

/-- part of the tree -/
def sub1 : Tree := (n (n (n (n (n (n (t 218368) 225537 (t 229376)) 231021 (n (t 232380) 232574 (t 248792))) 261728 (n (n (t 262144) 264416 (t 273788)) 284393 (n (t 288650) 293115 (t 294912)))) 298903 (n (n (n (t 300203) 301517 (t 304000)) 327009 (n (t 327680) 341763 (t 350076))) 350976 (n (n (t 351995) 354689 (t 360448)) 370341 (n (t 376943) 380311 (t 386860))))) 389216 (n (n (n (n (t 393216) 394831 (t 396800)) 404761 (n (t 411138) 420690 (t 425984))) 433316 (n (n (t 435552) 438638 (t 447109)) 451133 (n (t 458752) 461306 (t 463473)))) 465109 (n (n (n (t 472761) 482784 (t 491520)) 499970 (n (t 502866) 515413 (t 521856))) 523926 (n (n (t 524288) 527602 (t 528832)) 546271 (n (t 547537) 552500 (t 557056)))))) 565939 (n (n (n (n (n (t 572064) 574422 (t 582406)) 586975 (n (t 589824) 596519 (t 600406))) 603034 (n (n (t 606752) 614082 (t 622592)) 626817 (n (t 640041) 649536 (t 650571)))) 654526 (n (n (n (t 655360) 659441 (t 661280)) 662783 (n (t 682790) 685826 (t 688128))) 693530 (n (n (t 695370) 697640 (t 702502)) 703552 (n (t 720896) 730334 (t 737031))))) 738496 (n (n (n (n (t 739434) 749432 (t 753664)) 755534 (n (t 763372) 775090 (t 775855))) 782240 (n (n (t 786432) 788926 (t 792864)) 797988 (n (t 809499) 817069 (t 819200)))) 824149 (n (n (n (t 824639) 832064 (t 839290)) 842312 (n (t 851968) 853034 (t 866632))) 871104 (n (n (t 877276) 877939 (t 884736)) 890288 (n (t 893859) 895575 (t 900605)))))))

/-- part of the tree -/
def sub2 : Tree := (n (n (n (n (n (n (t 917504) 922589 (t 925632)) 926187 (n (t 930179) 944251 (t 950272))) 952404 (n (n (t 963744) 976049 (t 978639)) 979600 (n (t 983040) 990851 (t 999940)))) 1002528 (n (n (n (t 1005709) 1006629 (t 1015808)) 1026889 (n (t 1032806) 1036711 (t 1042240))) 1047507 (n (n (t 1048576) 1098744 (t 1103180)) 1114076 (n (t 1143804) 1228944 (t 1232529))))) 1269104 (n (n (n (n (t 1282146) 1313368 (t 1324086)) 1377446 (n (t 1381733) 1398443 (t 1402343))) 1403916 (n (n (t 1437302) 1449787 (t 1463888)) 1491060 (n (t 1522409) 1540497 (t 1552171)))) 1565383 (n (n (n (t 1572343) 1615904 (t 1639498)) 1645407 (n (t 1684415) 1696916 (t 1718485))) 1725820 (n (n (t 1812879) 1818315 (t 1830455)) 1839663 (n (t 1846334) 1864891 (t 1891841)))))) 1905841 (n (n (n (n (n (t 1941997) 1960389 (t 1964888)) 1985761 (n (t 1997620) 2000360 (t 2005051))) 2017691 (n (n (t 2019593) 2026884 (t 2033681)) 2034615 (n (t 2041810) 2044246 (t 2072683)))) 2084960 (n (n (n (t 2088217) 2097152 (t 2133713)) 2158979 (n (t 2166424) 2172665 (t 2186929))) 2246385 (n (n (t 2347806) 2357430 (t 2358631)) 2434313 (n (t 2440235) 2478144 (t 2498249))))) 2525332 (n (n (n (n (t 2536375) 2564292 (t 2613879)) 2616577 (n (t 2625977) 2648133 (t 2670018))) 2676577 (n (n (t 2721298) 2722768 (t 2732127)) 2733855 (n (t 2752264) 2754892 (t 2755702)))) 2763466 (n (n (n (t 2781134) 2784280 (t 2789387)) 2789991 (n (t 2804397) 2810501 (t 2850277))) 2852032 (n (n (t 2858523) 2867414 (t 2887081)) 2898815 (n (t 2924926) 2936159 (t 2938965)))))))

/-- part of the tree -/
def sub3 : Tree := (n (n (n (n (n (n (t 2989346) 3043570 (t 3057995)) 3080971 (n (t 3103606) 3104711 (t 3105966))) 3130330 (n (n (t 3135417) 3143562 (t 3145728)) 3191633 (n (t 3193316) 3208299 (t 3228451)))) 3252589 (n (n (n (t 3267540) 3269889 (t 3284559)) 3288289 (n (t 3301943) 3355917 (t 3390970))) 3425026 (n (n (t 3429536) 3432637 (t 3453094)) 3490745 (n (t 3512346) 3512784 (t 3527635))))) 3534207 (n (n (n (n (t 3583061) 3600675 (t 3608120)) 3609228 (n (t 3614820) 3626779 (t 3636868))) 3663257 (n (n (t 3666618) 3674960 (t 3688061)) 3701393 (n (t 3703450) 3704425 (t 3711536)))) 3732573 (n (n (n (t 3754523) 3810372 (t 3824633)) 3852630 (n (t 3857325) 3925173 (t 3939297))) 3955827 (n (n (t 4028512) 4065685 (t 4084168)) 4101011 (n (t 4131369) 4132330 (t 4132884)))))) 4145071 (n (n (n (n (n (t 4152029) 4164830 (t 4172008)) 4194304 (n (t 4231832) 4233413 (t 4247732))) 4250649 (n (n (t 4259516) 4266155 (t 4278022)) 4300822 (n (t 4301294) 4306042 (t 4318250)))) 4331577 (n (n (n (t 4332651) 4344059 (t 4382666)) 4426112 (n (t 4433285) 4438335 (t 4467947))) 4498267 (n (n (t 4519050) 4558818 (t 4586372)) 4654901 (n (t 4674885) 4677326 (t 4688173))))) 4690601 (n (n (n (n (t 4710192) 4710551 (t 4713271)) 4769229 (n (t 4838038) 4868626 (t 4880470))) 4883254 (n (n (t 4888549) 4890286 (t 4910428)) 4916352 (n (t 4951675) 4957885 (t 4967988)))) 4995250 (n (n (n (t 5020498) 5043191 (t 5050625)) 5071463 (n (t 5084291) 5095063 (t 5096149))) 5128584 (n (n (t 5163394) 5203431 (t 5209602)) 5225028 (n (t 5242880) 5286147 (t 5292220)))))))

/-- part of the tree -/
def sub4 : Tree := (n (n (n (n (n (n (t 5360172) 5361914 (t 5409539)) 5426549 (n (t 5432247) 5465157 (t 5483680))) 5510475 (n (n (t 5536056) 5555751 (t 5594903)) 5609022 (n (t 5610331) 5615637 (t 5621201)))) 5623406 (n (n (n (t 5637968) 5646321 (t 5666083)) 5675670 (n (t 5690968) 5714364 (t 5769718))) 5802626 (n (n (t 5813959) 5838657 (t 5841580)) 5845684 (n (t 5855268) 5863596 (t 5950722))))) 5958860 (n (n (n (n (t 5983703) 5996499 (t 6010725)) 6026454 (n (t 6030830) 6052320 (t 6054950))) 6074042 (n (n (t 6074617) 6089614 (t 6095527)) 6098843 (n (t 6109390) 6120281 (t 6148586)))) 6198184 (n (n (n (t 6203399) 6203993 (t 6215036)) 6251970 (n (t 6291236) 6291456 (t 6330107))) 6342792 (n (n (t 6376662) 6382507 (t 6386632)) 6395514 (n (t 6403717) 6432614 (t 6493857)))))) 6505178 (n (n (n (n (n (t 6516226) 6548803 (t 6568382)) 6576578 (n (t 6579559) 6595497 (t 6598131))) 6607915 (n (n (t 6651965) 6654450 (t 6668649)) 6671507 (n (t 6711834) 6731071 (t 6781917)))) 6819136 (n (n (n (t 6825764) 6841683 (t 6850448)) 6853379 (n (t 6906188) 6922799 (t 6956667))) 6984050 (n (n (t 6984883) 6986708 (t 6987777)) 7010942 (n (t 7014063) 7024669 (t 7025545))))) 7044823 (n (n (n (n (t 7051669) 7066064 (t 7118031)) 7123682 (n (t 7161414) 7166083 (t 7212863))) 7215481 (n (n (t 7217208) 7229640 (t 7232552)) 7263424 (n (t 7292029) 7302939 (t 7340032)))) 7378355 (n (n (n (t 7380113) 7391475 (t 7392700)) 7396918 (n (t 7418927) 7436183 (t 7442390))) 7471532 (n (n (t 7486622) 7496632 (t 7498549)) 7511519 (n (t 7522959) 7539367 (t 7545783)))))))

/-- part of the tree -/
def sub5 : Tree := (n (n (n (n (n (n (t 7585030) 7586797 (t 7616505)) 7616524 (n (t 7616574) 7624965 (t 7679287))) 7765216 (n (n (t 7782571) 7788467 (t 7805414)) 7849272 (n (t 7855392) 7862845 (t 7907577)))) 7911610 (n (n (n (t 7961355) 7971482 (t 7980170)) 7983227 (n (t 8023916) 8057134 (t 8097360))) 8110854 (n (n (t 8146009) 8193907 (t 8216808)) 8221060 (n (t 8227564) 8236939 (t 8321383))))) 8327992 (n (n (n (n (t 8342942) 8355236 (t 8363890)) 8372760 (n (t 8375309) 8384283 (t 8385685))) 8388608 (n (n (t 8434989) 8443013 (t 8455489)) 8461339 (n (t 8462393) 8466826 (t 8477809)))) 8487781 (n (n (n (t 8497898) 8501372 (t 8519313)) 8531756 (n (t 8532310) 8554752 (t 8601605))) 8602588 (n (n (t 8612061) 8612948 (t 8624639)) 8633697 (n (t 8636531) 8663131 (t 8664543)))))) 8665302 (n (n (n (n (n (t 8724148) 8761242 (t 8852224)) 8866570 (n (t 8876631) 8881189 (t 8935894))) 8955664 (n (n (t 8995775) 8998164 (t 9025284)) 9100580 (n (t 9105358) 9116388 (t 9131560)))) 9171368 (n (n (n (t 9236813) 9286573 (t 9291495)) 9309027 (n (t 9309834) 9313468 (t 9347586))) 9364974 (n (n (t 9376346) 9379689 (t 9379954)) 9397511 (n (t 9402215) 9413795 (t 9414918))))) 9435175 (n (n (n (n (t 9437184) 9498818 (t 9545114)) 9551612 (n (t 9552723) 9564909 (t 9567548))) 9574932 (n (n (t 9598397) 9606515 (t 9648560)) 9657457 (n (t 9667896) 9669788 (t 9680524)))) 9703460 (n (n (n (t 9708703) 9714070 (t 9725729)) 9728023 (n (t 9750282) 9757975 (t 9762343))) 9771721 (n (n (t 9789904) 9806572 (t 9809985)) 9826955 (n (t 9831156) 9831873 (t 9837654)))))))

/-- part of the tree -/
def sub6 : Tree := (n (n (n (n (n (n (t 9908137) 9938504 (t 9961137)) 9967609 (n (t 9987114) 10006350 (t 10011488))) 10021729 (n (n (t 10037802) 10101024 (t 10129556)) 10172274 (n (t 10213852) 10216957 (t 10242068)))) 10242155 (n (n (n (t 10243855) 10247426 (t 10308071)) 10320162 (n (t 10376356) 10379943 (t 10381726))) 10450800 (n (n (t 10464317) 10485760 (t 10560849)) 10572294 (n (t 10599940) 10616216 (t 10665863))))) 10673839 (n (n (n (n (t 10683869) 10696056 (t 10711379)) 10734981 (n (t 10742762) 10785733 (t 10818342))) 10829507 (n (n (t 10839655) 10850340 (t 10873006)) 10906762 (n (t 10916936) 10922914 (t 10928248)))) 10933592 (n (n (n (t 10936417) 10967360 (t 11020950)) 11032153 (n (t 11087214) 11112145 (t 11117168))) 11128846 (n (n (t 11129275) 11149095 (t 11202436)) 11217269 (n (t 11218827) 11219903 (t 11222524)))))) 11231235 (n (n (n (n (n (t 11263848) 11275177 (t 11291371)) 11292230 (n (t 11307996) 11311040 (t 11332684))) 11341241 (n (n (t 11350053) 11393149 (t 11395547)) 11400764 (n (t 11428689) 11436142 (t 11442751)))) 11462587 (n (n (n (t 11465116) 11503572 (t 11534336)) 11611868 (n (t 11619590) 11641646 (t 11643460))) 11646238 (n (n (t 11686833) 11742135 (t 11743573)) 11749280 (n (t 11811295) 11845126 (t 11850929))))) 11866471 (n (n (n (n (t 11884638) 11901371 (t 11915486)) 11922319 (n (t 11931628) 11946231 (t 11956722))) 11961762 (n (n (t 11976583) 11982879 (t 11983372)) 12002879 (n (t 12013748) 12051107 (t 12052564)))) 12061155 (n (n (n (t 12062181) 12070474 (t 12076353)) 12078435 (n (t 12117626) 12118779 (t 12124671))) 12130892 (n (n (t 12148407) 12155128 (t 12169972)) 12235403 (n (t 12283099) 12291367 (t 12326838)))))))

/-- part of the tree -/
def sub7 : Tree := (n (n (n (n (n (n (t 12429067) 12433073 (t 12454927)) 12463571 (n (t 12466926) 12473944 (t 12479319))) 12523506 (n (n (t 12534211) 12541293 (t 12579168)) 12582912 (n (t 12634623) 12658943 (t 12662032)))) 12690125 (n (n (n (t 12691791) 12694177 (t 12697602)) 12703221 (n (t 12729733) 12732080 (t 12740214))) 12748926 (n (n (t 12770471) 12771347 (t 12771890)) 12790269 (n (t 12806186) 12814217 (t 12825347))))) 12864492 (n (n (n (n (t 12884608) 12897128 (t 12906127)) 12945961 (n (t 12952358) 12985533 (t 12986466))) 13008164 (n (n (t 13035160) 13074054 (t 13091198)) 13113220 (n (t 13135566) 13136725 (t 13141392)))) 13146999 (n (n (n (t 13147216) 13152987 (t 13156441)) 13175894 (n (t 13189746) 13196239 (t 13208960))) 13282515 (n (n (t 13303615) 13303891 (t 13308877)) 13313746 (n (t 13319439) 13399357 (t 13462103)))))) 13482398 (n (n (n (n (n (t 13492452) 13522611 (t 13538566)) 13544876 (n (t 13631488) 13689165 (t 13692466))) 13706656 (n (n (t 13745906) 13774600 (t 13805017)) 13806661 (n (t 13821188) 13844994 (t 13866127)))) 13937678 (n (n (n (t 13940231) 13942928 (t 13944618)) 13959140 (n (t 13989626) 13998736 (t 14012195))) 14019804 (n (n (t 14032299) 14036445 (t 14038835)) 14043774 (n (t 14046667) 14073564 (t 14080865))))) 14089518 (n (n (n (n (t 14101035) 14122671 (t 14172079)) 14180930 (n (t 14194157) 14242047 (t 14253185))) 14257576 (n (n (t 14281404) 14307518 (t 14326998)) 14333769 (n (t 14358129) 14371552 (t 14372580)))) 14432662 (n (n (n (t 14436274) 14451138 (t 14455332)) 14474021 (n (t 14479626) 14485185 (t 14530856))) 14542850 (n (n (t 14543237) 14547829 (t 14553531)) 14561803 (n (t 14578777) 14680064 (t 14745592)))))))

/-- part of the tree -/
def sub8 : Tree := (n (n (n (n (n (n (t 14756687) 14759375 (t 14760203)) 14761809 (n (t 14796380) 14831143 (t 14837854))) 14883493 (n (n (t 14916009) 14919468 (t 14943064)) 14968441 (n (t 14972771) 14973205 (t 15021118)))) 15022999 (n (n (n (t 15061467) 15069533 (t 15077486)) 15090279 (n (t 15128374) 15148794 (t 15162333))) 15170060 (n (n (t 15172831) 15183124 (t 15188029)) 15209994 (n (t 15231739) 15233048 (t 15233109))))) 15324878 (n (n (n (n (t 15358535) 15377273 (t 15384341)) 15392584 (n (t 15443257) 15449069 (t 15449114))) 15453443 (n (n (t 15466303) 15490496 (t 15514779)) 15535727 (n (t 15541590) 15610828 (t 15633391)))) 15648520 (n (n (n (t 15656400) 15670848 (t 15674969)) 15684979 (n (t 15700216) 15718966 (t 15728640))) 15763562 (n (n (t 15765042) 15781408 (t 15801778)) 15814946 (n (t 15824583) 15853037 (t 15858437)))))) 15881790 (n (n (n (n (n (t 15911406) 15914279 (t 15925076)) 15958729 (n (t 15959266) 15963556 (t 15976786))) 15999052 (n (n (t 16053728) 16058575 (t 16091718)) 16200152 (n (t 16210861) 16218121 (t 16219106)))) 16221648 (n (n (n (t 16226341) 16249782 (t 16267603)) 16276623 (n (t 16339693) 16359804 (t 16380496))) 16387321 (n (n (t 16399205) 16411930 (t 16453972)) 16478982 (n (t 16493235) 16505825 (t 16527201))))) 16531421 (n (n (n (n (t 16554547) 16587430 (t 16604777)) 16640841 (n (t 16689380) 16695115 (t 16699414))) 16706138 (n (n (t 16708498) 16728112 (t 16756212)) 16760035 (n (t 16764012) 16765653 (t 16769748)))) 16777216 (n (n (n (t 16846090) 16869978 (t 16883272)) 16907964 (n (t 16910978) 16915659 (t 16922655))) 16924763 (n (n (t 16933652) 16944496 (t 16953576)) 16974826 (n (t 16994548) 16997419 (t 17002705)))))))

/-- part of the tree -/
def sub9 : Tree := (n (n (n (n (n (n (t 17062776) 17064581 (t 17078149)) 17109504 (n (t 17156905) 17179658 (t 17180337))) 17200531 (n (n (t 17202305) 17213047 (t 17219073)) 17249239 (n (t 17249487) 17267394 (t 17296168)))) 17326239 (n (n (n (t 17329047) 17330565 (t 17339366)) 17340468 (n (t 17348945) 17416484 (t 17428444))) 17447009 (n (n (t 17473981) 17480690 (t 17481933)) 17485806 (n (t 17493518) 17521213 (t 17549638))))) 17551884 (n (n (n (n (t 17552462) 17680026 (t 17703712)) 17708852 (n (t 17712551) 17762378 (t 17804526))) 17818234 (n (n (t 17825792) 17876334 (t 17888387)) 17902428 (n (t 17930079) 17930430 (t 17953600)))) 17964283 (n (n (n (t 17992247) 18000943 (t 18032383)) 18037353 (n (t 18044774) 18066122 (t 18072475))) 18089589 (n (n (t 18105637) 18110070 (t 18116788)) 18118197 (n (t 18121339) 18124070 (t 18136812)))))) 18153439 (n (n (n (n (n (t 18211961) 18242379 (t 18292711)) 18298303 (n (t 18302205) 18306067 (t 18315564))) 18325749 (n (n (t 18340713) 18349618 (t 18369795)) 18381532 (n (t 18386521) 18393199 (t 18396627)))) 18426907 (n (n (n (t 18427142) 18435543 (t 18436673)) 18461653 (n (t 18461738) 18518791 (t 18519330))) 18532495 (n (n (t 18637012) 18661777 (t 18664412)) 18725408 (n (t 18757625) 18768813 (t 18783210))))) 18815313 (n (n (n (n (t 18863639) 18874368 (t 18924096)) 18957700 (n (t 18981121) 19065837 (t 19081135))) 19088634 (n (n (t 19090205) 19095121 (t 19101937)) 19109777 (n (t 19132371) 19149089 (t 19156819)))) 19180283 (n (n (n (t 19197012) 19213007 (t 19245024)) 19258300 (n (t 19265506) 19274955 (t 19297097))) 19321204 (n (n (t 19335769) 19339537 (t 19359800)) 19406920 (n (t 19416071) 19417367 (t 19427170)))))))

/-- part of the tree -/
def sub10 : Tree := (n (n (n (n (n (n (t 19434824) 19457134 (t 19461909)) 19476276 (n (t 19484014) 19492359 (t 19542194))) 19556233 (n (n (t 19582953) 19611896 (t 19612726)) 19619970 (n (t 19650643) 19661025 (t 19663746)))) 19672854 (n (n (n (t 19675269) 19701252 (t 19706881)) 19707094 (n (t 19709758) 19815026 (t 19838926))) 19846724 (n (n (t 19876272) 19881067 (t 19922944)) 19966465 (n (t 19979849) 19982711 (t 20020111))))) 20058150 (n (n (n (n (t 20087923) 20158700 (t 20164434)) 20167696 (n (t 20168545) 20192445 (t 20216915))) 20229106 (n (n (t 20258614) 20272888 (t 20276365)) 20285610 (n (t 20298115) 20334388 (t 20336122)))) 20352963 (n (n (n (t 20381616) 20423304 (t 20474464)) 20481315 (n (t 20549270) 20560715 (t 20566248))) 20580005 (n (n (t 20600713) 20608896 (t 20626838)) 20636274 (n (t 20653671) 20671914 (t 20675095)))))) 20676976 (n (n (n (n (n (t 20685993) 20697825 (t 20699714)) 20713373 (n (t 20755888) 20780770 (t 20785163))) 20788525 (n (n (t 20789705) 20794801 (t 20818302)) 20820330 (n (t 20825706) 20827893 (t 20838054)))) 20877870 (n (n (n (t 20887848) 20944861 (t 20950900)) 20971520 (n (t 21019502) 21102120 (t 21103916))) 21121675 (n (n (t 21156547) 21158454 (t 21160567)) 21160966 (n (t 21167057) 21192473 (t 21199144))))) 21209072 (n (n (n (n (t 21269947) 21286949 (t 21306494)) 21330478 (n (t 21367699) 21382799 (t 21392089))) 21420764 (n (n (t 21446410) 21460724 (t 21464092)) 21464927 (n (t 21469355) 21479913 (t 21555115)))) 21570218 (n (n (n (t 21594332) 21606775 (t 21612305)) 21622399 (n (t 21635948) 21655022 (t 21657766))) 21700680 (n (n (t 21722460) 21727905 (t 21789972)) 21795442 (n (t 21804278) 21806508 (t 21827225)))))))

/-- part of the tree -/
def sub11 : Tree := (n (n (n (n (n (n (t 21833872) 21844580 (t 21849282)) 21861041 (n (t 21867168) 21888152 (t 21894784))) 21928795 (n (n (t 21946442) 21992659 (t 22007153)) 22013855 (n (t 22020096) 22061845 (t 22098847)))) 22103796 (n (n (n (t 22109491) 22136978 (t 22159745)) 22164186 (n (t 22182592) 22192984 (t 22251846))) 22255266 (n (n (t 22271884) 22277442 (t 22280601)) 22284712 (n (t 22297948) 22311866 (t 22324505))))) 22359928 (n (n (n (n (t 22364194) 22417268 (t 22445757)) 22462112 (n (t 22480094) 22489316 (t 22513552))) 22513674 (n (n (t 22523258) 22531923 (t 22533733)) 22551235 (n (t 22580237) 22580456 (t 22587901)))) 22603323 (n (n (n (t 22624789) 22627390 (t 22657997)) 22667480 (n (t 22682044) 22683234 (t 22702769))) 22712882 (n (n (t 22719978) 22732948 (t 22793837)) 22874589 (n (t 22910692) 22926447 (t 22937933)))))) 22942600 (n (n (n (n (n (t 22959024) 22964282 (t 23012523)) 23015250 (n (t 23061214) 23068672 (t 23191606))) 23215628 (n (n (t 23222449) 23264671 (t 23282556)) 23286184 (n (t 23292437) 23304782 (t 23332459)))) 23368646 (n (n (n (t 23370698) 23375490 (t 23379654)) 23386548 (n (t 23457277) 23459071 (t 23473760))) 23482983 (n (n (t 23487107) 23495639 (t 23501927)) 23507384 (n (t 23516633) 23584993 (t 23622551))))) 23629241 (n (n (n (n (t 23631902) 23649167 (t 23654652)) 23656359 (n (t 23661899) 23689516 (t 23729301))) 23732942 (n (n (t 23764698) 23766918 (t 23767789)) 23790997 (n (t 23802719) 23819838 (t 23840448)))) 23862008 (n (n (n (t 23868871) 23873485 (t 23898725)) 23923524 (n (t 23925783) 23926072 (t 23951918))) 23981826 (n (n (t 23987521) 24004983 (t 24077414)) 24081537 (n (t 24103734) 24111211 (t 24117248)))))))

/-- part of the tree -/
def sub12 : Tree := (n (n (n (n (n (n (t 24177119) 24183366 (t 24195916)) 24196894 (n (t 24202319) 24217559 (t 24220511))) 24255494 (n (n (t 24256143) 24259734 (t 24267640)) 24299039 (n (t 24342240) 24350307 (t 24427921)))) 24471334 (n (n (n (t 24540216) 24556260 (t 24557762)) 24564541 (n (t 24611596) 24636994 (t 24638671))) 24715985 (n (n (t 24738653) 24756122 (t 24769036)) 24772096 (n (t 24782589) 24795741 (t 24796252))))) 24802894 (n (n (n (n (t 24805259) 24827371 (t 24847699)) 24861947 (n (t 24879986) 24888941 (t 24890499))) 24938470 (n (n (t 24954321) 24985143 (t 25010444)) 25026345 (n (t 25027993) 25028702 (t 25031698)))) 25040632 (n (n (n (t 25042637) 25071949 (t 25078457)) 25096261 (n (t 25115143) 25141635 (t 25154856))) 25165824 (n (n (t 25245655) 25287055 (t 25288567)) 25317847 (n (t 25324041) 25329807 (t 25338554)))))) 25348269 (n (n (n (n (n (t 25360926) 25366467 (t 25371652)) 25379002 (n (t 25383582) 25387106 (t 25439337))) 25456101 (n (n (t 25459466) 25471528 (t 25479075)) 25492668 (n (t 25497813) 25501006 (t 25519119)))) 25519469 (n (n (n (t 25529097) 25535643 (t 25539559)) 25540745 (n (t 25551039) 25580499 (t 25588820))) 25597630 (n (n (t 25598085) 25601517 (t 25627186)) 25649958 (n (t 25664256) 25704184 (t 25726063))))) 25767968 (n (n (n (n (t 25769968) 25787454 (t 25799180)) 25811800 (n (t 25891186) 25903980 (t 25971027))) 25972932 (n (n (t 25976392) 26005075 (t 26045497)) 26106924 (n (t 26146215) 26158805 (t 26207688)))) 26211093 (n (n (n (t 26214400) 26372775 (t 26387149)) 26388472 (n (t 26416926) 26419175 (t 26478471))) 26506546 (n (n (t 26536185) 26542366 (t 26555738)) 26558589 (n (t 26563893) 26581214 (t 26608693)))))))

/-- part of the tree -/
def sub13 : Tree := (n (n (n (n (n (n (t 26617181) 26626056 (t 26633412)) 26664021 (n (t 26665024) 26667753 (t 26711993))) 26726712 (n (n (t 26761012) 26761426 (t 26771402)) 26778712 (n (t 26816102) 26825072 (t 26828113)))) 26857294 (n (n (n (t 26878339) 26884764 (t 26897438)) 26898138 (n (t 26921123) 26940210 (t 26954015))) 26960622 (n (n (t 26961239) 26964242 (t 26986275)) 26996624 (n (t 27002543) 27020417 (t 27035016))))) 27041200 (n (n (n (n (t 27047567) 27076725 (t 27078922)) 27085786 (n (t 27114927) 27136365 (t 27158380))) 27196507 (n (n (t 27210528) 27262976 (t 27297109)) 27354778 (n (t 27360621) 27376005 (t 27388850)))) 27413312 (n (n (n (t 27437547) 27440352 (t 27442408)) 27490541 (n (t 27548464) 27583908 (t 27589246))) 27610011 (n (n (t 27613322) 27618824 (t 27634650)) 27665700 (n (t 27690455) 27712770 (t 27732254)))))) 27761488 (n (n (n (n (n (t 27784305) 27829087 (t 27839643)) 27844918 (n (t 27862281) 27864948 (t 27875356))) 27877096 (n (n (t 27879726) 27938045 (t 27996201)) 28000102 (n (t 28016017) 28053398 (t 28063221)))) 28064598 (n (n (n (t 28072851) 28076911 (t 28094061)) 28111621 (n (t 28121058) 28139100 (t 28145841))) 28148612 (n (n (t 28153706) 28156264 (t 28165652)) 28201334 (n (t 28204158) 28215458 (t 28301283))))) 28308048 (n (n (n (n (t 28308484) 28309258 (t 28311552)) 28361478 (n (t 28373041) 28376085 (t 28376253))) 28423494 (n (n (t 28484461) 28489239 (t 28493325)) 28501244 (n (t 28503687) 28553062 (t 28573225)))) 28603502 (n (n (n (t 28610401) 28611981 (t 28630708)) 28655802 (n (t 28658425) 28686489 (t 28715829))) 28719854 (n (n (t 28739273) 28745355 (t 28760556)) 28819388 (n (t 28838446) 28855885 (t 28877530)))))))

/-- part of the tree -/
def sub14 : Tree := (n (n (n (n (n (n (t 28931547) 28957855 (t 28967445)) 28970563 (n (t 28976339) 28994205 (t 29025120))) 29045141 (n (n (t 29100099) 29110380 (t 29111312)) 29117075 (n (t 29126024) 29132926 (t 29146370)))) 29170819 (n (n (n (t 29189248) 29193458 (t 29199120)) 29211465 (n (t 29222974) 29275837 (t 29282499))) 29286932 (n (n (t 29296217) 29305467 (t 29358942)) 29360128 (n (t 29398446) 29449977 (t 29466544))))) 29475835 (n (n (n (n (t 29489955) 29506250 (t 29512638)) 29518750 (n (t 29520406) 29522859 (t 29568433))) 29605382 (n (n (t 29608539) 29613943 (t 29618938)) 29620253 (n (t 29637998) 29652117 (t 29665588)))) 29672473 (n (n (n (t 29672579) 29684991 (t 29765738)) 29832018 (n (t 29838200) 29854908 (t 29885369))) 29904870 (n (n (t 29906435) 29912571 (t 29942456)) 29987582 (n (t 29994800) 30011273 (t 30042197)))))) 30044711 (n (n (n (n (n (t 30052047) 30063008 (t 30071227)) 30082975 (n (t 30099091) 30119269 (t 30122457))) 30154972 (n (n (t 30156270) 30187392 (t 30216037)) 30275871 (n (t 30283443) 30296317 (t 30299448)))) 30317054 (n (n (n (t 30329477) 30345623 (t 30352467)) 30366209 (n (t 30408704) 30457299 (t 30476931))) 30564058 (n (n (t 30567485) 30596875 (t 30597202)) 30604268 (n (t 30634762) 30635629 (t 30685088))))) 30757846 (n (n (n (n (t 30763456) 30767568 (t 30784799)) 30786487 (n (t 30795333) 30823898 (t 30839825))) 30842096 (n (n (t 30853650) 30858209 (t 30864988)) 30938985 (n (t 30967493) 30973141 (t 31020533)))) 31027016 (n (n (n (t 31035716) 31069460 (t 31077951)) 31096112 (n (t 31150781) 31166182 (t 31180201))) 31181832 (n (n (t 31182644) 31214152 (t 31233583)) 31234597 (n (t 31255491) 31257509 (t 31258622)))))))

/-- part of the tree -/
def sub15 : Tree := (n (n (n (n (n (n (t 31268356) 31311658 (t 31316474)) 31347221 (n (t 31366577) 31369956 (t 31380811))) 31404969 (n (n (t 31411403) 31425064 (t 31435764)) 31436065 (n (t 31441616) 31457280 (t 31496667)))) 31519722 (n (n (n (t 31522333) 31527124 (t 31529325)) 31538528 (n (t 31589956) 31603533 (t 31607982))) 31629953 (n (n (t 31639340) 31676202 (t 31682522)) 31692514 (n (t 31707247) 31722869 (t 31759646))))) 31781519 (n (n (n (n (t 31788622) 31799260 (t 31809441)) 31884538 (n (t 31916210) 31918532 (t 31927112))) 31929997 (n (n (t 31965905) 31966633 (t 31998104)) 32067520 (n (t 32080901) 32097837 (t 32100808)))) 32110013 (n (n (n (t 32111542) 32117150 (t 32154697)) 32182700 (n (t 32212131) 32226520 (t 32234433))) 32236705 (n (n (t 32242118) 32300002 (t 32307891)) 32354671 (n (t 32380538) 32396306 (t 32397028)))))) 32400281 (n (n (n (n (n (t 32415218) 32419948 (t 32443273)) 32452682 (n (t 32458341) 32503730 (t 32505856))) 32538915 (n (n (t 32545190) 32557455 (t 32568371)) 32581420 (n (t 32588875) 32594947 (t 32595283)))) 32630752 (n (n (n (t 32695043) 32729740 (t 32805244)) 32816570 (n (t 32845114) 32850938 (t 32860455))) 32861649 (n (n (t 32865326) 32882877 (t 32898809)) 32952223 (n (t 32988140) 32988530 (t 33004823))))) 33049820 (n (n (n (n (t 33102818) 33102945 (t 33106714)) 33129862 (n (t 33154337) 33155187 (t 33170781))) 33174779 (n (n (t 33196475) 33214975 (t 33255707)) 33281973 (n (t 33313635) 33321212 (t 33329286)))) 33338415 (n (n (n (t 33349848) 33351689 (t 33357584)) 33360050 (n (t 33363928) 33372214 (t 33394901))) 33421828 (n (n (t 33470726) 33476045 (t 33484032)) 33520241 (n (t 33526569) 33551282 (t 33551445)))))))

/-- zero and the remainders in the rows from 1 on, without their last coefficients -/
def tree : Tree := (n (n (n (n sub0 217395 sub1) 909728 (n sub2 2958529 sub3)) 5355709 (n (n sub4 7581178 sub5) 9848203 (n sub6 12379521 sub7))) 14753125 (n (n (n sub8 17024848 sub9) 19428101 (n sub10 21832921 sub11)) 24169107 (n (n sub12 26614438 sub13) 28897272 (n sub14 31263623 sub15))))

end Verif.Bech32.Four
