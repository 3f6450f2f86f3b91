/-!
# src/palette.h: the colour tables

Entries in units of 10^-9, red, green and blue of colour 0, then of colour 1, and so on, copied from the source.
-/

namespace Athena.Image

/-- src/palette.h:22-279. -/
def jh_colors : List Nat := [
  0, 0, 500000000, 0, 0, 515686300, 0, 0, 531372500, 0, 0, 547058800,
  0, 0, 562745100, 0, 0, 578431400, 0, 0, 594117600, 0, 0, 609803900,
  0, 0, 625490200, 0, 0, 641176500, 0, 0, 656862700, 0, 0, 672549000,
  0, 0, 688235300, 0, 0, 703921600, 0, 0, 719607800, 0, 0, 735294100,
  0, 0, 750980400, 0, 0, 766666700, 0, 0, 782352900, 0, 0, 798039200,
  0, 0, 813725500, 0, 0, 829411800, 0, 0, 845098000, 0, 0, 860784300,
  0, 0, 876470600, 0, 0, 892156900, 0, 0, 907843100, 0, 0, 923529400,
  0, 0, 939215700, 0, 0, 954902000, 0, 0, 970588200, 0, 0, 986274500,
  0, 1960784, 996093800, 0, 17647060, 996093800, 0, 33333330, 996093800, 0, 49019610, 996093800,
  0, 64705880, 996093800, 0, 80392160, 996093800, 0, 96078430, 996093800, 0, 111764700, 996093800,
  0, 127451000, 996093800, 0, 143137300, 996093800, 0, 158823500, 996093800, 0, 174509800, 996093800,
  0, 190196100, 996093800, 0, 205882400, 996093800, 0, 221568600, 996093800, 0, 237254900, 996093800,
  0, 252941200, 996093800, 0, 268627500, 996093800, 0, 284313700, 996093800, 0, 300000000, 996093800,
  0, 315686300, 996093800, 0, 331372500, 996093800, 0, 347058800, 996093800, 0, 362745100, 996093800,
  0, 378431400, 996093800, 0, 394117600, 996093800, 0, 409803900, 996093800, 0, 425490200, 996093800,
  0, 441176500, 996093800, 0, 456862700, 996093800, 0, 472549000, 996093800, 0, 488235300, 996093800,
  0, 503921600, 996093800, 0, 519607800, 996093800, 0, 535294100, 996093800, 0, 550980400, 996093800,
  0, 566666700, 996093800, 0, 582352900, 996093800, 0, 598039200, 996093800, 0, 613725500, 996093800,
  0, 629411800, 996093800, 0, 645098000, 996093800, 0, 660784300, 996093800, 0, 676470600, 996093800,
  0, 692156900, 996093800, 0, 707843100, 996093800, 0, 723529400, 996093800, 0, 739215700, 996093800,
  0, 754902000, 996093800, 0, 770588200, 996093800, 0, 786274500, 996093800, 0, 801960800, 996093800,
  0, 817647100, 996093800, 0, 833333300, 996093800, 0, 849019600, 996093800, 0, 864705900, 996093800,
  0, 880392200, 996093800, 0, 896078400, 996093800, 0, 911764700, 996093800, 0, 927451000, 996093800,
  0, 943137300, 996093800, 0, 958823500, 996093800, 0, 974509800, 996093800, 0, 990196100, 996093800,
  5882353, 994117600, 994117600, 21568630, 978431400, 978431400, 37254900, 962745100, 962745100, 52941180, 947058800, 947058800,
  68627450, 931372500, 931372500, 84313730, 915686300, 915686300, 100000000, 900000000, 900000000, 115686300, 884313700, 884313700,
  131372500, 868627500, 868627500, 147058800, 852941200, 852941200, 162745100, 837254900, 837254900, 178431400, 821568600, 821568600,
  194117600, 805882400, 805882400, 209803900, 790196100, 790196100, 225490200, 774509800, 774509800, 241176500, 758823500, 758823500,
  256862700, 743137300, 743137300, 272549000, 727451000, 727451000, 288235300, 711764700, 711764700, 303921600, 696078400, 696078400,
  319607800, 680392200, 680392200, 335294100, 664705900, 664705900, 350980400, 649019600, 649019600, 366666700, 633333300, 633333300,
  382352900, 617647100, 617647100, 398039200, 601960800, 601960800, 413725500, 586274500, 586274500, 429411800, 570588200, 570588200,
  445098000, 554902000, 554902000, 460784300, 539215700, 539215700, 476470600, 523529400, 523529400, 492156900, 507843100, 507843100,
  507843100, 507843100, 492156900, 523529400, 523529400, 476470600, 539215700, 539215700, 460784300, 554902000, 554902000, 445098000,
  570588200, 570588200, 429411800, 586274500, 586274500, 413725500, 601960800, 601960800, 398039200, 617647100, 617647100, 382352900,
  633333300, 633333300, 366666700, 649019600, 649019600, 350980400, 664705900, 664705900, 335294100, 680392200, 680392200, 319607800,
  696078400, 696078400, 303921600, 711764700, 711764700, 288235300, 727451000, 727451000, 272549000, 743137300, 743137300, 256862700,
  758823500, 758823500, 241176500, 774509800, 774509800, 225490200, 790196100, 790196100, 209803900, 805882400, 805882400, 194117600,
  821568600, 821568600, 178431400, 837254900, 837254900, 162745100, 852941200, 852941200, 147058800, 868627500, 868627500, 131372500,
  884313700, 884313700, 115686300, 900000000, 900000000, 100000000, 915686300, 915686300, 84313730, 931372500, 931372500, 68627450,
  947058800, 947058800, 52941180, 962745100, 962745100, 37254900, 978431400, 978431400, 21568630, 994117600, 994117600, 5882353,
  996093800, 990196100, 0, 996093800, 974509800, 0, 996093800, 958823500, 0, 996093800, 943137300, 0,
  996093800, 927451000, 0, 996093800, 911764700, 0, 996093800, 896078400, 0, 996093800, 880392200, 0,
  996093800, 864705900, 0, 996093800, 849019600, 0, 996093800, 833333300, 0, 996093800, 817647100, 0,
  996093800, 801960800, 0, 996093800, 786274500, 0, 996093800, 770588200, 0, 996093800, 754902000, 0,
  996093800, 739215700, 0, 996093800, 723529400, 0, 996093800, 707843100, 0, 996093800, 692156900, 0,
  996093800, 676470600, 0, 996093800, 660784300, 0, 996093800, 645098000, 0, 996093800, 629411800, 0,
  996093800, 613725500, 0, 996093800, 598039200, 0, 996093800, 582352900, 0, 996093800, 566666700, 0,
  996093800, 550980400, 0, 996093800, 535294100, 0, 996093800, 519607800, 0, 996093800, 503921600, 0,
  996093800, 488235300, 0, 996093800, 472549000, 0, 996093800, 456862700, 0, 996093800, 441176500, 0,
  996093800, 425490200, 0, 996093800, 409803900, 0, 996093800, 394117600, 0, 996093800, 378431400, 0,
  996093800, 362745100, 0, 996093800, 347058800, 0, 996093800, 331372500, 0, 996093800, 315686300, 0,
  996093800, 300000000, 0, 996093800, 284313700, 0, 996093800, 268627500, 0, 996093800, 252941200, 0,
  996093800, 237254900, 0, 996093800, 221568600, 0, 996093800, 205882400, 0, 996093800, 190196100, 0,
  996093800, 174509800, 0, 996093800, 158823500, 0, 996093800, 143137300, 0, 996093800, 127451000, 0,
  996093800, 111764700, 0, 996093800, 96078430, 0, 996093800, 80392160, 0, 996093800, 64705880, 0,
  996093800, 49019610, 0, 996093800, 33333330, 0, 996093800, 17647060, 0, 996093800, 1960784, 0,
  986274500, 0, 0, 970588200, 0, 0, 954902000, 0, 0, 939215700, 0, 0,
  923529400, 0, 0, 907843100, 0, 0, 892156900, 0, 0, 876470600, 0, 0,
  860784300, 0, 0, 845098000, 0, 0, 829411800, 0, 0, 813725500, 0, 0,
  798039200, 0, 0, 782352900, 0, 0, 766666700, 0, 0, 750980400, 0, 0,
  735294100, 0, 0, 719607800, 0, 0, 703921600, 0, 0, 688235300, 0, 0,
  672549000, 0, 0, 656862700, 0, 0, 641176500, 0, 0, 625490200, 0, 0,
  609803900, 0, 0, 594117600, 0, 0, 578431400, 0, 0, 562745100, 0, 0,
  547058800, 0, 0, 531372500, 0, 0, 515686300, 0, 0, 500000000, 0, 0]

/-- src/palette.h:283-540. -/
def step8 : List Nat := [
  0, 0, 0, 196080000, 196080000, 196080000, 196080000, 196080000, 196080000, 196080000, 196080000, 196080000,
  196080000, 196080000, 196080000, 196080000, 196080000, 196080000, 196080000, 196080000, 196080000, 196080000, 196080000, 196080000,
  196080000, 196080000, 196080000, 196080000, 196080000, 196080000, 196080000, 196080000, 196080000, 196080000, 196080000, 196080000,
  196080000, 196080000, 196080000, 196080000, 196080000, 196080000, 196080000, 196080000, 196080000, 196080000, 196080000, 196080000,
  196080000, 196080000, 196080000, 196080000, 196080000, 196080000, 196080000, 196080000, 196080000, 196080000, 196080000, 196080000,
  196080000, 196080000, 196080000, 196080000, 196080000, 196080000, 196080000, 196080000, 196080000, 196080000, 196080000, 196080000,
  196080000, 196080000, 196080000, 196080000, 196080000, 196080000, 196080000, 196080000, 196080000, 196080000, 196080000, 196080000,
  196080000, 196080000, 196080000, 196080000, 196080000, 196080000, 196080000, 196080000, 196080000, 196080000, 196080000, 196080000,
  474510000, 0, 607840000, 474510000, 0, 607840000, 474510000, 0, 607840000, 474510000, 0, 607840000,
  474510000, 0, 607840000, 474510000, 0, 607840000, 474510000, 0, 607840000, 474510000, 0, 607840000,
  474510000, 0, 607840000, 474510000, 0, 607840000, 474510000, 0, 607840000, 474510000, 0, 607840000,
  474510000, 0, 607840000, 474510000, 0, 607840000, 474510000, 0, 607840000, 474510000, 0, 607840000,
  474510000, 0, 607840000, 474510000, 0, 607840000, 474510000, 0, 607840000, 474510000, 0, 607840000,
  474510000, 0, 607840000, 474510000, 0, 607840000, 474510000, 0, 607840000, 474510000, 0, 607840000,
  474510000, 0, 607840000, 474510000, 0, 607840000, 474510000, 0, 607840000, 474510000, 0, 607840000,
  0, 0, 784310000, 0, 0, 784310000, 0, 0, 784310000, 0, 0, 784310000,
  0, 0, 784310000, 0, 0, 784310000, 0, 0, 784310000, 0, 0, 784310000,
  0, 0, 784310000, 0, 0, 784310000, 0, 0, 784310000, 0, 0, 784310000,
  0, 0, 784310000, 0, 0, 784310000, 0, 0, 784310000, 0, 0, 784310000,
  0, 0, 784310000, 0, 0, 784310000, 0, 0, 784310000, 0, 0, 784310000,
  0, 0, 784310000, 0, 0, 784310000, 0, 0, 784310000, 0, 0, 784310000,
  0, 0, 784310000, 0, 0, 784310000, 0, 0, 784310000, 0, 0, 784310000,
  372550000, 654900000, 925490000, 372550000, 654900000, 925490000, 372550000, 654900000, 925490000, 372550000, 654900000, 925490000,
  372550000, 654900000, 925490000, 372550000, 654900000, 925490000, 372550000, 654900000, 925490000, 372550000, 654900000, 925490000,
  372550000, 654900000, 925490000, 372550000, 654900000, 925490000, 372550000, 654900000, 925490000, 372550000, 654900000, 925490000,
  372550000, 654900000, 925490000, 372550000, 654900000, 925490000, 372550000, 654900000, 925490000, 372550000, 654900000, 925490000,
  372550000, 654900000, 925490000, 372550000, 654900000, 925490000, 372550000, 654900000, 925490000, 372550000, 654900000, 925490000,
  372550000, 654900000, 925490000, 372550000, 654900000, 925490000, 372550000, 654900000, 925490000, 372550000, 654900000, 925490000,
  372550000, 654900000, 925490000, 372550000, 654900000, 925490000, 372550000, 654900000, 925490000, 372550000, 654900000, 925490000,
  0, 568630000, 0, 0, 568630000, 0, 0, 568630000, 0, 0, 568630000, 0,
  0, 568630000, 0, 0, 568630000, 0, 0, 568630000, 0, 0, 568630000, 0,
  0, 568630000, 0, 0, 568630000, 0, 0, 568630000, 0, 0, 568630000, 0,
  0, 568630000, 0, 0, 568630000, 0, 0, 568630000, 0, 0, 568630000, 0,
  0, 568630000, 0, 0, 568630000, 0, 0, 568630000, 0, 0, 568630000, 0,
  0, 568630000, 0, 0, 568630000, 0, 0, 568630000, 0, 0, 568630000, 0,
  0, 568630000, 0, 0, 568630000, 0, 0, 568630000, 0, 0, 568630000, 0,
  0, 964710000, 0, 0, 964710000, 0, 0, 964710000, 0, 0, 964710000, 0,
  0, 964710000, 0, 0, 964710000, 0, 0, 964710000, 0, 0, 964710000, 0,
  0, 964710000, 0, 0, 964710000, 0, 0, 964710000, 0, 0, 964710000, 0,
  0, 964710000, 0, 0, 964710000, 0, 0, 964710000, 0, 0, 964710000, 0,
  0, 964710000, 0, 0, 964710000, 0, 0, 964710000, 0, 0, 964710000, 0,
  0, 964710000, 0, 0, 964710000, 0, 0, 964710000, 0, 0, 964710000, 0,
  0, 964710000, 0, 0, 964710000, 0, 0, 964710000, 0, 0, 964710000, 0,
  1000000000, 1000000000, 0, 1000000000, 1000000000, 0, 1000000000, 1000000000, 0, 1000000000, 1000000000, 0,
  1000000000, 1000000000, 0, 1000000000, 1000000000, 0, 1000000000, 1000000000, 0, 1000000000, 1000000000, 0,
  1000000000, 1000000000, 0, 1000000000, 1000000000, 0, 1000000000, 1000000000, 0, 1000000000, 1000000000, 0,
  1000000000, 1000000000, 0, 1000000000, 1000000000, 0, 1000000000, 1000000000, 0, 1000000000, 1000000000, 0,
  1000000000, 1000000000, 0, 1000000000, 1000000000, 0, 1000000000, 1000000000, 0, 1000000000, 1000000000, 0,
  1000000000, 1000000000, 0, 1000000000, 1000000000, 0, 1000000000, 1000000000, 0, 1000000000, 1000000000, 0,
  1000000000, 1000000000, 0, 1000000000, 1000000000, 0, 1000000000, 1000000000, 0, 1000000000, 1000000000, 0,
  1000000000, 694120000, 0, 1000000000, 694120000, 0, 1000000000, 694120000, 0, 1000000000, 694120000, 0,
  1000000000, 694120000, 0, 1000000000, 694120000, 0, 1000000000, 694120000, 0, 1000000000, 694120000, 0,
  1000000000, 694120000, 0, 1000000000, 694120000, 0, 1000000000, 694120000, 0, 1000000000, 694120000, 0,
  1000000000, 694120000, 0, 1000000000, 694120000, 0, 1000000000, 694120000, 0, 1000000000, 694120000, 0,
  1000000000, 694120000, 0, 1000000000, 694120000, 0, 1000000000, 694120000, 0, 1000000000, 694120000, 0,
  1000000000, 694120000, 0, 1000000000, 694120000, 0, 1000000000, 694120000, 0, 1000000000, 694120000, 0,
  1000000000, 694120000, 0, 1000000000, 694120000, 0, 1000000000, 694120000, 0, 1000000000, 694120000, 0,
  1000000000, 0, 0, 1000000000, 0, 0, 1000000000, 0, 0, 1000000000, 0, 0,
  1000000000, 0, 0, 1000000000, 0, 0, 1000000000, 0, 0, 1000000000, 0, 0,
  1000000000, 0, 0, 1000000000, 0, 0, 1000000000, 0, 0, 1000000000, 0, 0,
  1000000000, 0, 0, 1000000000, 0, 0, 1000000000, 0, 0, 1000000000, 0, 0,
  1000000000, 0, 0, 1000000000, 0, 0, 1000000000, 0, 0, 1000000000, 0, 0,
  1000000000, 0, 0, 1000000000, 0, 0, 1000000000, 0, 0, 1000000000, 0, 0,
  1000000000, 0, 0, 1000000000, 0, 0, 1000000000, 0, 0, 1000000000, 0, 0]

/-- src/palette.h:544-801. -/
def heat : List Nat := [
  0, 0, 0, 11760000, 3920000, 0, 23530000, 7840000, 0, 35290000, 11760000, 0,
  47060000, 15690000, 0, 58820000, 19610000, 0, 70590000, 23530000, 0, 82350000, 27450000, 0,
  94120000, 31370000, 0, 105880000, 35290000, 0, 117650000, 39220000, 0, 129410000, 43140000, 0,
  141180000, 47060000, 0, 152940000, 50980000, 0, 164710000, 54900000, 0, 176470000, 58820000, 0,
  188240000, 62750000, 0, 200000000, 66670000, 0, 211760000, 70590000, 0, 223530000, 74510000, 0,
  235290000, 78430000, 0, 247060000, 82350000, 0, 258820000, 86270000, 0, 270590000, 90200000, 0,
  282350000, 94120000, 0, 294120000, 98040000, 0, 305880000, 101960000, 0, 317650000, 105880000, 0,
  329410000, 109800000, 0, 341180000, 113730000, 0, 352940000, 117650000, 0, 364710000, 121570000, 0,
  376470000, 125490000, 0, 388240000, 129410000, 0, 400000000, 133330000, 0, 411760000, 137250000, 0,
  423530000, 141180000, 0, 435290000, 145100000, 0, 447060000, 149020000, 0, 458820000, 152940000, 0,
  470590000, 156860000, 0, 482350000, 160780000, 0, 494120000, 164710000, 0, 505880000, 168630000, 0,
  517650000, 172550000, 0, 529410000, 176470000, 0, 541180000, 180390000, 0, 552940000, 184310000, 0,
  564710000, 188240000, 0, 576470000, 192160000, 0, 588240000, 196080000, 0, 600000000, 200000000, 0,
  611760000, 203920000, 0, 623530000, 207840000, 0, 635290000, 211760000, 0, 647060000, 215690000, 0,
  658820000, 219610000, 0, 670590000, 223530000, 0, 682350000, 227450000, 0, 694120000, 231370000, 0,
  705880000, 235290000, 0, 717650000, 239220000, 0, 729410000, 243140000, 0, 741180000, 247060000, 0,
  752940000, 250980000, 0, 764710000, 254900000, 0, 776470000, 258820000, 0, 788240000, 262750000, 0,
  800000000, 266670000, 0, 811760000, 270590000, 0, 823530000, 274510000, 0, 835290000, 278430000, 0,
  847060000, 282350000, 0, 858820000, 286270000, 0, 870590000, 290200000, 0, 882350000, 294120000, 0,
  894120000, 298040000, 0, 905880000, 301960000, 0, 917650000, 305880000, 0, 929410000, 309800000, 0,
  941180000, 313730000, 0, 952940000, 317650000, 0, 964710000, 321570000, 0, 976470000, 325490000, 0,
  988240000, 329410000, 0, 1000000000, 333330000, 0, 1000000000, 337250000, 0, 1000000000, 341180000, 0,
  1000000000, 345100000, 0, 1000000000, 349020000, 0, 1000000000, 352940000, 0, 1000000000, 356860000, 0,
  1000000000, 360780000, 0, 1000000000, 364710000, 0, 1000000000, 368630000, 0, 1000000000, 372550000, 0,
  1000000000, 376470000, 0, 1000000000, 380390000, 0, 1000000000, 384310000, 0, 1000000000, 388240000, 0,
  1000000000, 392160000, 0, 1000000000, 396080000, 0, 1000000000, 400000000, 0, 1000000000, 403920000, 0,
  1000000000, 407840000, 0, 1000000000, 411760000, 0, 1000000000, 415690000, 0, 1000000000, 419610000, 0,
  1000000000, 423530000, 0, 1000000000, 427450000, 0, 1000000000, 431370000, 0, 1000000000, 435290000, 0,
  1000000000, 439220000, 0, 1000000000, 443140000, 0, 1000000000, 447060000, 0, 1000000000, 450980000, 0,
  1000000000, 454900000, 0, 1000000000, 458820000, 0, 1000000000, 462750000, 0, 1000000000, 466670000, 0,
  1000000000, 470590000, 0, 1000000000, 474510000, 0, 1000000000, 478430000, 0, 1000000000, 482350000, 0,
  1000000000, 486270000, 0, 1000000000, 490200000, 0, 1000000000, 494120000, 0, 1000000000, 498040000, 0,
  1000000000, 501960000, 0, 1000000000, 505880000, 0, 1000000000, 509800000, 0, 1000000000, 513730000, 0,
  1000000000, 517650000, 0, 1000000000, 521570000, 0, 1000000000, 525490000, 0, 1000000000, 529410000, 0,
  1000000000, 533330000, 0, 1000000000, 537250000, 0, 1000000000, 541180000, 0, 1000000000, 545100000, 0,
  1000000000, 549020000, 0, 1000000000, 552940000, 0, 1000000000, 556860000, 0, 1000000000, 560780000, 0,
  1000000000, 564710000, 0, 1000000000, 568630000, 0, 1000000000, 572550000, 0, 1000000000, 576470000, 0,
  1000000000, 580390000, 0, 1000000000, 584310000, 0, 1000000000, 588240000, 0, 1000000000, 592160000, 0,
  1000000000, 596080000, 0, 1000000000, 600000000, 0, 1000000000, 603920000, 0, 1000000000, 607840000, 0,
  1000000000, 611760000, 0, 1000000000, 615690000, 0, 1000000000, 619610000, 0, 1000000000, 623530000, 0,
  1000000000, 627450000, 0, 1000000000, 631370000, 0, 1000000000, 635290000, 0, 1000000000, 639220000, 0,
  1000000000, 643140000, 0, 1000000000, 647060000, 0, 1000000000, 650980000, 11760000, 1000000000, 654900000, 23530000,
  1000000000, 658820000, 35290000, 1000000000, 662750000, 47060000, 1000000000, 666670000, 58820000, 1000000000, 670590000, 70590000,
  1000000000, 674510000, 82350000, 1000000000, 678430000, 94120000, 1000000000, 682350000, 105880000, 1000000000, 686270000, 117650000,
  1000000000, 690200000, 129410000, 1000000000, 694120000, 141180000, 1000000000, 698040000, 152940000, 1000000000, 701960000, 164710000,
  1000000000, 705880000, 176470000, 1000000000, 709800000, 188240000, 1000000000, 713730000, 200000000, 1000000000, 717650000, 211760000,
  1000000000, 721570000, 223530000, 1000000000, 725490000, 235290000, 1000000000, 729410000, 247060000, 1000000000, 733330000, 258820000,
  1000000000, 737250000, 270590000, 1000000000, 741180000, 282350000, 1000000000, 745100000, 294120000, 1000000000, 749020000, 305880000,
  1000000000, 752940000, 317650000, 1000000000, 756860000, 329410000, 1000000000, 760780000, 341180000, 1000000000, 764710000, 352940000,
  1000000000, 768630000, 364710000, 1000000000, 772550000, 376470000, 1000000000, 776470000, 388240000, 1000000000, 780390000, 400000000,
  1000000000, 784310000, 411760000, 1000000000, 788240000, 423530000, 1000000000, 792160000, 435290000, 1000000000, 796080000, 447060000,
  1000000000, 800000000, 458820000, 1000000000, 803920000, 470590000, 1000000000, 807840000, 482350000, 1000000000, 811760000, 494120000,
  1000000000, 815690000, 505880000, 1000000000, 819610000, 517650000, 1000000000, 823530000, 529410000, 1000000000, 827450000, 541180000,
  1000000000, 831370000, 552940000, 1000000000, 835290000, 564710000, 1000000000, 839220000, 576470000, 1000000000, 843140000, 588240000,
  1000000000, 847060000, 600000000, 1000000000, 850980000, 611760000, 1000000000, 854900000, 623530000, 1000000000, 858820000, 635290000,
  1000000000, 862750000, 647060000, 1000000000, 866670000, 658820000, 1000000000, 870590000, 670590000, 1000000000, 874510000, 682350000,
  1000000000, 878430000, 694120000, 1000000000, 882350000, 705880000, 1000000000, 886270000, 717650000, 1000000000, 890200000, 729410000,
  1000000000, 894120000, 741180000, 1000000000, 898040000, 752940000, 1000000000, 901960000, 764710000, 1000000000, 905880000, 776470000,
  1000000000, 909800000, 788240000, 1000000000, 913730000, 800000000, 1000000000, 917650000, 811760000, 1000000000, 921570000, 823530000,
  1000000000, 925490000, 835290000, 1000000000, 929410000, 847060000, 1000000000, 933330000, 858820000, 1000000000, 937250000, 870590000,
  1000000000, 941180000, 882350000, 1000000000, 945100000, 894120000, 1000000000, 949020000, 905880000, 1000000000, 952940000, 917650000,
  1000000000, 956860000, 929410000, 1000000000, 960780000, 941180000, 1000000000, 964710000, 952940000, 1000000000, 968630000, 964710000,
  1000000000, 972550000, 976470000, 1000000000, 976470000, 988240000, 1000000000, 980390000, 1000000000, 1000000000, 984310000, 1000000000,
  1000000000, 988240000, 1000000000, 1000000000, 992160000, 1000000000, 1000000000, 996080000, 1000000000, 1000000000, 1000000000, 1000000000]

/-- src/palette.h:805-1062. -/
def idl1 : List Nat := [
  0, 0, 0, 0, 3920000, 3920000, 0, 7840000, 7840000, 0, 11760000, 11760000,
  0, 15690000, 15690000, 0, 31370000, 31370000, 0, 47060000, 47060000, 0, 62750000, 62750000,
  0, 82350000, 82350000, 0, 98040000, 98040000, 0, 113730000, 113730000, 0, 129410000, 129410000,
  0, 149020000, 149020000, 0, 164710000, 164710000, 0, 180390000, 180390000, 0, 196080000, 196080000,
  0, 215690000, 215690000, 0, 231370000, 231370000, 0, 247060000, 247060000, 0, 262750000, 262750000,
  0, 282350000, 282350000, 0, 298040000, 298040000, 0, 313730000, 313730000, 0, 329410000, 329410000,
  0, 349020000, 349020000, 0, 364710000, 364710000, 0, 380390000, 380390000, 0, 396080000, 396080000,
  0, 415690000, 415690000, 0, 431370000, 431370000, 0, 447060000, 447060000, 0, 462750000, 462750000,
  0, 482350000, 482350000, 0, 498040000, 498040000, 0, 513730000, 513730000, 0, 529410000, 529410000,
  0, 549020000, 549020000, 0, 564710000, 564710000, 0, 580390000, 580390000, 0, 596080000, 596080000,
  0, 615690000, 615690000, 0, 631370000, 631370000, 0, 647060000, 647060000, 0, 662750000, 662750000,
  0, 682350000, 682350000, 0, 698040000, 698040000, 0, 713730000, 713730000, 0, 729410000, 729410000,
  0, 749020000, 749020000, 0, 764710000, 764710000, 0, 780390000, 780390000, 0, 796080000, 796080000,
  0, 815690000, 815690000, 0, 831370000, 831370000, 0, 847060000, 847060000, 0, 862750000, 862750000,
  0, 882350000, 882350000, 0, 898040000, 898040000, 0, 913730000, 913730000, 0, 929410000, 929410000,
  0, 949020000, 949020000, 0, 964710000, 964710000, 0, 980390000, 980390000, 0, 1000000000, 1000000000,
  0, 1000000000, 1000000000, 0, 984310000, 1000000000, 0, 968630000, 1000000000, 0, 952940000, 1000000000,
  0, 937250000, 1000000000, 0, 921570000, 1000000000, 0, 905880000, 1000000000, 0, 890200000, 1000000000,
  0, 874510000, 1000000000, 0, 858820000, 1000000000, 0, 843140000, 1000000000, 0, 827450000, 1000000000,
  0, 811760000, 1000000000, 0, 796080000, 1000000000, 0, 780390000, 1000000000, 0, 764710000, 1000000000,
  0, 749020000, 1000000000, 0, 733330000, 1000000000, 0, 717650000, 1000000000, 0, 701960000, 1000000000,
  0, 686270000, 1000000000, 0, 666670000, 1000000000, 0, 650980000, 1000000000, 0, 635290000, 1000000000,
  0, 619610000, 1000000000, 0, 603920000, 1000000000, 0, 588240000, 1000000000, 0, 572550000, 1000000000,
  0, 556860000, 1000000000, 0, 541180000, 1000000000, 0, 525490000, 1000000000, 0, 509800000, 1000000000,
  0, 494120000, 1000000000, 0, 478430000, 1000000000, 0, 462750000, 1000000000, 0, 447060000, 1000000000,
  0, 431370000, 1000000000, 0, 415690000, 1000000000, 0, 400000000, 1000000000, 0, 384310000, 1000000000,
  0, 368630000, 1000000000, 0, 352940000, 1000000000, 0, 333330000, 1000000000, 0, 317650000, 1000000000,
  0, 301960000, 1000000000, 0, 286270000, 1000000000, 0, 270590000, 1000000000, 0, 254900000, 1000000000,
  0, 239220000, 1000000000, 0, 223530000, 1000000000, 0, 207840000, 1000000000, 0, 192160000, 1000000000,
  0, 176470000, 1000000000, 0, 160780000, 1000000000, 0, 145100000, 1000000000, 0, 129410000, 1000000000,
  0, 113730000, 1000000000, 0, 98040000, 1000000000, 0, 82350000, 1000000000, 0, 66670000, 1000000000,
  0, 50980000, 1000000000, 0, 35290000, 1000000000, 0, 19610000, 1000000000, 0, 0, 1000000000,
  0, 0, 1000000000, 15690000, 0, 1000000000, 31370000, 0, 1000000000, 47060000, 0, 1000000000,
  62750000, 0, 1000000000, 78430000, 0, 1000000000, 94120000, 0, 1000000000, 109800000, 0, 1000000000,
  125490000, 0, 1000000000, 141180000, 0, 1000000000, 156860000, 0, 1000000000, 172550000, 0, 1000000000,
  188240000, 0, 1000000000, 203920000, 0, 1000000000, 219610000, 0, 1000000000, 235290000, 0, 1000000000,
  250980000, 0, 1000000000, 266670000, 0, 1000000000, 282350000, 0, 1000000000, 298040000, 0, 1000000000,
  313730000, 0, 1000000000, 333330000, 0, 1000000000, 349020000, 0, 1000000000, 364710000, 0, 1000000000,
  380390000, 0, 1000000000, 396080000, 0, 1000000000, 411760000, 0, 1000000000, 427450000, 0, 1000000000,
  443140000, 0, 1000000000, 458820000, 0, 1000000000, 474510000, 0, 1000000000, 490200000, 0, 1000000000,
  505880000, 0, 1000000000, 521570000, 0, 1000000000, 537250000, 0, 1000000000, 552940000, 0, 1000000000,
  568630000, 0, 1000000000, 584310000, 0, 1000000000, 600000000, 0, 1000000000, 615690000, 0, 1000000000,
  631370000, 0, 1000000000, 647060000, 0, 1000000000, 666670000, 0, 1000000000, 682350000, 0, 1000000000,
  698040000, 0, 1000000000, 713730000, 0, 1000000000, 729410000, 0, 1000000000, 745100000, 0, 1000000000,
  760780000, 0, 1000000000, 776470000, 0, 1000000000, 792160000, 0, 1000000000, 807840000, 0, 1000000000,
  823530000, 0, 1000000000, 839220000, 0, 1000000000, 854900000, 0, 1000000000, 870590000, 0, 1000000000,
  886270000, 0, 1000000000, 901960000, 0, 1000000000, 917650000, 0, 1000000000, 933330000, 0, 1000000000,
  949020000, 0, 1000000000, 964710000, 0, 1000000000, 980390000, 0, 1000000000, 1000000000, 0, 1000000000,
  1000000000, 0, 1000000000, 1000000000, 0, 984310000, 1000000000, 0, 968630000, 1000000000, 0, 952940000,
  1000000000, 0, 937250000, 1000000000, 0, 921570000, 1000000000, 0, 905880000, 1000000000, 0, 890200000,
  1000000000, 0, 874510000, 1000000000, 0, 854900000, 1000000000, 0, 839220000, 1000000000, 0, 823530000,
  1000000000, 0, 807840000, 1000000000, 0, 792160000, 1000000000, 0, 776470000, 1000000000, 0, 760780000,
  1000000000, 0, 745100000, 1000000000, 0, 729410000, 1000000000, 0, 709800000, 1000000000, 0, 694120000,
  1000000000, 0, 678430000, 1000000000, 0, 662750000, 1000000000, 0, 647060000, 1000000000, 0, 631370000,
  1000000000, 0, 615690000, 1000000000, 0, 600000000, 1000000000, 0, 584310000, 1000000000, 0, 564710000,
  1000000000, 0, 549020000, 1000000000, 0, 533330000, 1000000000, 0, 517650000, 1000000000, 0, 501960000,
  1000000000, 0, 486270000, 1000000000, 0, 470590000, 1000000000, 0, 454900000, 1000000000, 0, 439220000,
  1000000000, 0, 419610000, 1000000000, 0, 403920000, 1000000000, 0, 388240000, 1000000000, 0, 372550000,
  1000000000, 0, 356860000, 1000000000, 0, 341180000, 1000000000, 0, 325490000, 1000000000, 0, 309800000,
  1000000000, 0, 294120000, 1000000000, 0, 274510000, 1000000000, 0, 258820000, 1000000000, 0, 243140000,
  1000000000, 0, 227450000, 1000000000, 0, 211760000, 1000000000, 0, 196080000, 1000000000, 0, 180390000,
  1000000000, 0, 164710000, 1000000000, 0, 149020000, 1000000000, 0, 129410000, 1000000000, 0, 113730000,
  1000000000, 0, 98040000, 1000000000, 0, 82350000, 1000000000, 0, 66670000, 1000000000, 0, 50980000,
  1000000000, 0, 35290000, 1000000000, 0, 19610000, 1000000000, 0, 0, 1000000000, 0, 0]

/-- src/palette.h:1066-1323. -/
def idl2 : List Nat := [
  0, 0, 0, 11760000, 0, 0, 27450000, 0, 0, 43140000, 0, 0,
  58820000, 0, 0, 74510000, 0, 0, 86270000, 0, 0, 101960000, 0, 0,
  117650000, 0, 0, 133330000, 0, 0, 149020000, 0, 0, 160780000, 0, 0,
  176470000, 0, 0, 192160000, 0, 0, 207840000, 0, 0, 223530000, 0, 0,
  235290000, 0, 0, 250980000, 0, 0, 266670000, 0, 0, 282350000, 0, 0,
  298040000, 0, 0, 309800000, 0, 0, 325490000, 0, 0, 341180000, 0, 0,
  356860000, 0, 0, 372550000, 0, 0, 384310000, 0, 0, 400000000, 0, 0,
  415690000, 0, 0, 431370000, 0, 0, 447060000, 0, 0, 458820000, 0, 0,
  474510000, 0, 0, 490200000, 0, 0, 505880000, 0, 0, 521570000, 0, 0,
  537250000, 0, 0, 549020000, 0, 0, 564710000, 0, 0, 580390000, 0, 0,
  596080000, 0, 0, 611760000, 0, 0, 623530000, 0, 0, 639220000, 0, 0,
  654900000, 0, 0, 670590000, 0, 0, 686270000, 0, 0, 698040000, 0, 0,
  713730000, 0, 0, 729410000, 0, 0, 745100000, 0, 0, 760780000, 0, 0,
  772550000, 0, 0, 788240000, 0, 0, 803920000, 0, 0, 819610000, 0, 0,
  835290000, 0, 0, 847060000, 0, 0, 862750000, 0, 0, 878430000, 0, 0,
  894120000, 0, 0, 909800000, 0, 0, 921570000, 0, 0, 937250000, 0, 0,
  952940000, 0, 0, 968630000, 11760000, 0, 984310000, 27450000, 0, 1000000000, 43140000, 0,
  984310000, 58820000, 0, 968630000, 74510000, 0, 952940000, 90200000, 0, 937250000, 105880000, 0,
  921570000, 121570000, 0, 901960000, 137250000, 0, 886270000, 152940000, 0, 870590000, 168630000, 0,
  854900000, 184310000, 0, 839220000, 200000000, 0, 823530000, 215690000, 0, 803920000, 231370000, 0,
  788240000, 247060000, 0, 772550000, 262750000, 0, 756860000, 278430000, 0, 741180000, 294120000, 0,
  721570000, 309800000, 0, 705880000, 325490000, 0, 690200000, 341180000, 0, 674510000, 356860000, 0,
  658820000, 372550000, 0, 643140000, 388240000, 0, 623530000, 403920000, 0, 607840000, 419610000, 0,
  592160000, 435290000, 0, 576470000, 450980000, 0, 560780000, 466670000, 0, 541180000, 482350000, 0,
  525490000, 498040000, 0, 509800000, 513730000, 0, 494120000, 529410000, 0, 478430000, 545100000, 0,
  462750000, 560780000, 0, 443140000, 576470000, 0, 427450000, 592160000, 0, 411760000, 607840000, 0,
  396080000, 623530000, 0, 380390000, 639220000, 0, 360780000, 654900000, 0, 345100000, 670590000, 0,
  329410000, 686270000, 0, 313730000, 701960000, 0, 298040000, 717650000, 0, 282350000, 733330000, 0,
  262750000, 749020000, 0, 247060000, 764710000, 0, 231370000, 780390000, 0, 215690000, 796080000, 0,
  200000000, 811760000, 0, 180390000, 827450000, 0, 164710000, 843140000, 0, 149020000, 858820000, 0,
  133330000, 874510000, 0, 117650000, 890200000, 0, 101960000, 905880000, 0, 82350000, 921570000, 0,
  66670000, 937250000, 0, 50980000, 952940000, 0, 35290000, 968630000, 0, 19610000, 984310000, 11760000,
  0, 1000000000, 27450000, 0, 984310000, 43140000, 0, 968630000, 58820000, 0, 952940000, 74510000,
  0, 937250000, 90200000, 0, 921570000, 105880000, 0, 905880000, 117650000, 0, 890200000, 133330000,
  0, 874510000, 149020000, 0, 858820000, 164710000, 0, 843140000, 180390000, 0, 827450000, 196080000,
  0, 811760000, 211760000, 0, 796080000, 223530000, 0, 780390000, 239220000, 0, 764710000, 254900000,
  0, 749020000, 270590000, 0, 733330000, 286270000, 0, 717650000, 301960000, 0, 701960000, 317650000,
  0, 686270000, 333330000, 0, 666670000, 345100000, 0, 650980000, 360780000, 0, 635290000, 376470000,
  0, 619610000, 392160000, 0, 603920000, 407840000, 0, 588240000, 423530000, 0, 572550000, 439220000,
  0, 556860000, 450980000, 0, 541180000, 466670000, 0, 525490000, 482350000, 0, 509800000, 498040000,
  0, 494120000, 513730000, 0, 478430000, 529410000, 0, 462750000, 545100000, 0, 447060000, 556860000,
  0, 431370000, 572550000, 0, 415690000, 588240000, 0, 400000000, 603920000, 0, 384310000, 619610000,
  0, 368630000, 635290000, 0, 352940000, 650980000, 0, 333330000, 666670000, 0, 317650000, 678430000,
  0, 301960000, 694120000, 0, 286270000, 709800000, 0, 270590000, 725490000, 0, 254900000, 741180000,
  0, 239220000, 756860000, 0, 223530000, 772550000, 0, 207840000, 784310000, 0, 192160000, 800000000,
  0, 176470000, 815690000, 0, 160780000, 831370000, 0, 145100000, 847060000, 0, 129410000, 862750000,
  0, 113730000, 878430000, 0, 98040000, 890200000, 0, 82350000, 905880000, 0, 66670000, 921570000,
  0, 50980000, 937250000, 0, 35290000, 952940000, 0, 19610000, 968630000, 0, 0, 984310000,
  0, 0, 1000000000, 0, 0, 984310000, 0, 0, 968630000, 0, 0, 952940000,
  0, 0, 937250000, 0, 0, 921570000, 0, 0, 905880000, 0, 0, 890200000,
  0, 0, 874510000, 0, 0, 858820000, 0, 0, 843140000, 0, 0, 827450000,
  0, 0, 811760000, 0, 0, 796080000, 0, 0, 780390000, 0, 0, 764710000,
  0, 0, 749020000, 0, 0, 733330000, 0, 0, 717650000, 0, 0, 701960000,
  0, 0, 686270000, 0, 0, 666670000, 0, 0, 650980000, 0, 0, 635290000,
  0, 0, 619610000, 0, 0, 603920000, 0, 0, 588240000, 0, 0, 572550000,
  0, 0, 556860000, 0, 0, 541180000, 0, 0, 525490000, 0, 0, 509800000,
  0, 0, 494120000, 0, 0, 478430000, 0, 0, 462750000, 0, 0, 447060000,
  0, 0, 431370000, 0, 0, 415690000, 0, 0, 400000000, 0, 0, 384310000,
  0, 0, 368630000, 0, 0, 352940000, 0, 0, 333330000, 0, 0, 317650000,
  0, 0, 301960000, 0, 0, 286270000, 0, 0, 270590000, 0, 0, 254900000,
  0, 0, 239220000, 0, 0, 223530000, 0, 0, 207840000, 0, 0, 192160000,
  0, 0, 176470000, 0, 0, 160780000, 0, 0, 145100000, 0, 0, 129410000,
  0, 0, 113730000, 0, 0, 98040000, 0, 0, 82350000, 0, 0, 66670000,
  0, 0, 50980000, 0, 0, 35290000, 0, 0, 19610000, 0, 0, 0]

/-- src/palette.h:1327-1584. -/
def rainbow : List Nat := [
  0, 0, 164710000, 27450000, 0, 184310000, 58820000, 0, 200000000, 86270000, 0, 219610000,
  113730000, 0, 239220000, 145100000, 0, 258820000, 176470000, 0, 278430000, 203920000, 0, 298040000,
  231370000, 0, 317650000, 262750000, 0, 337250000, 294120000, 0, 356860000, 321570000, 0, 376470000,
  352940000, 0, 396080000, 380390000, 0, 415690000, 411760000, 0, 435290000, 439220000, 0, 454900000,
  470590000, 0, 474510000, 498040000, 0, 494120000, 529410000, 0, 513730000, 556860000, 0, 537250000,
  588240000, 0, 556860000, 556860000, 0, 576470000, 529410000, 0, 596080000, 498040000, 0, 615690000,
  470590000, 0, 639220000, 439220000, 0, 658820000, 411760000, 0, 678430000, 380390000, 0, 701960000,
  352940000, 0, 721570000, 321570000, 0, 741180000, 294120000, 0, 764710000, 262750000, 0, 784310000,
  231370000, 0, 803920000, 203920000, 0, 827450000, 176470000, 0, 847060000, 145100000, 0, 870590000,
  113730000, 0, 890200000, 86270000, 0, 913730000, 58820000, 0, 933330000, 27450000, 0, 956860000,
  0, 0, 976470000, 0, 0, 1000000000, 0, 0, 976470000, 0, 7840000, 956860000,
  0, 15690000, 933330000, 0, 23530000, 913730000, 0, 31370000, 890200000, 0, 39220000, 870590000,
  0, 50980000, 850980000, 0, 62750000, 831370000, 0, 78430000, 811760000, 0, 98040000, 792160000,
  0, 117650000, 772550000, 0, 137250000, 752940000, 0, 156860000, 733330000, 0, 176470000, 713730000,
  0, 196080000, 694120000, 0, 215690000, 674510000, 0, 235290000, 658820000, 0, 254900000, 643140000,
  0, 270590000, 627450000, 0, 286270000, 611760000, 0, 301960000, 596080000, 0, 321570000, 580390000,
  0, 333330000, 564710000, 0, 345100000, 549020000, 0, 356860000, 533330000, 0, 368630000, 517650000,
  0, 380390000, 501960000, 0, 392160000, 486270000, 0, 403920000, 470590000, 0, 411760000, 458820000,
  0, 423530000, 447060000, 0, 435290000, 435290000, 0, 447060000, 423530000, 0, 458820000, 411760000,
  0, 466670000, 400000000, 0, 478430000, 388240000, 0, 490200000, 376470000, 0, 498040000, 364710000,
  0, 509800000, 352940000, 0, 521570000, 341180000, 0, 529410000, 329410000, 0, 541180000, 317650000,
  0, 552940000, 305880000, 0, 560780000, 294120000, 0, 572550000, 282350000, 0, 584310000, 270590000,
  0, 592160000, 258820000, 0, 603920000, 247060000, 0, 611760000, 235290000, 0, 623530000, 223530000,
  0, 631370000, 211760000, 0, 643140000, 200000000, 0, 650980000, 188240000, 0, 662750000, 176470000,
  0, 670590000, 164710000, 0, 682350000, 152940000, 0, 690200000, 141180000, 0, 701960000, 129410000,
  0, 709800000, 117650000, 0, 721570000, 101960000, 0, 729410000, 86270000, 0, 741180000, 70590000,
  0, 749020000, 54900000, 0, 760780000, 39220000, 0, 768630000, 23530000, 0, 776470000, 0,
  0, 788240000, 0, 0, 796080000, 0, 0, 807840000, 0, 0, 815690000, 0,
  0, 823530000, 0, 0, 835290000, 0, 0, 843140000, 0, 0, 854900000, 0,
  0, 862750000, 0, 0, 870590000, 0, 0, 882350000, 0, 0, 890200000, 0,
  0, 898040000, 0, 0, 909800000, 0, 0, 917650000, 0, 0, 925490000, 0,
  0, 937250000, 0, 0, 945100000, 0, 0, 952940000, 0, 0, 960780000, 0,
  0, 972550000, 0, 0, 980390000, 0, 0, 988240000, 0, 7840000, 1000000000, 0,
  15690000, 988240000, 0, 23530000, 980390000, 0, 31370000, 972550000, 0, 43140000, 960780000, 0,
  54900000, 952940000, 0, 66670000, 945100000, 0, 78430000, 937250000, 0, 90200000, 925490000, 0,
  101960000, 917650000, 0, 113730000, 909800000, 0, 125490000, 898040000, 0, 137250000, 890200000, 0,
  149020000, 882350000, 0, 164710000, 870590000, 0, 200000000, 862750000, 0, 235290000, 854900000, 0,
  266670000, 843140000, 0, 305880000, 835290000, 0, 341180000, 823530000, 0, 376470000, 815690000, 0,
  411760000, 807840000, 0, 447060000, 796080000, 0, 486270000, 788240000, 0, 521570000, 776470000, 0,
  560780000, 768630000, 0, 596080000, 776470000, 0, 635290000, 788240000, 0, 670590000, 800000000, 0,
  709800000, 811760000, 0, 749020000, 827450000, 0, 784310000, 843140000, 0, 823530000, 858820000, 0,
  858820000, 870590000, 0, 898040000, 890200000, 0, 933330000, 901960000, 0, 976470000, 921570000, 0,
  1000000000, 933330000, 0, 1000000000, 952940000, 0, 1000000000, 968630000, 0, 1000000000, 988240000, 0,
  1000000000, 1000000000, 0, 1000000000, 1000000000, 0, 1000000000, 1000000000, 0, 996080000, 1000000000, 0,
  1000000000, 1000000000, 0, 1000000000, 1000000000, 0, 1000000000, 1000000000, 0, 1000000000, 1000000000, 0,
  1000000000, 1000000000, 0, 1000000000, 1000000000, 0, 1000000000, 1000000000, 0, 1000000000, 1000000000, 0,
  1000000000, 1000000000, 0, 1000000000, 1000000000, 0, 1000000000, 1000000000, 0, 1000000000, 1000000000, 0,
  1000000000, 1000000000, 0, 1000000000, 1000000000, 0, 1000000000, 1000000000, 0, 1000000000, 1000000000, 0,
  1000000000, 1000000000, 0, 1000000000, 976470000, 0, 1000000000, 937250000, 0, 1000000000, 898040000, 0,
  1000000000, 858820000, 0, 1000000000, 819610000, 0, 1000000000, 780390000, 0, 1000000000, 741180000, 0,
  1000000000, 701960000, 0, 1000000000, 662750000, 0, 1000000000, 623530000, 0, 1000000000, 584310000, 0,
  1000000000, 545100000, 0, 1000000000, 509800000, 0, 1000000000, 466670000, 0, 1000000000, 431370000, 0,
  1000000000, 392160000, 0, 1000000000, 352940000, 0, 1000000000, 317650000, 0, 1000000000, 274510000, 0,
  1000000000, 239220000, 0, 1000000000, 200000000, 0, 1000000000, 168630000, 0, 1000000000, 129410000, 0,
  1000000000, 98040000, 0, 1000000000, 82350000, 0, 1000000000, 62750000, 0, 1000000000, 47060000, 0,
  1000000000, 23530000, 0, 1000000000, 0, 0, 992160000, 0, 0, 984310000, 0, 0,
  976470000, 0, 0, 968630000, 0, 0, 960780000, 0, 0, 952940000, 0, 0,
  945100000, 0, 0, 937250000, 0, 0, 929410000, 0, 0, 921570000, 0, 0,
  913730000, 0, 0, 905880000, 0, 0, 898040000, 0, 0, 890200000, 0, 0,
  882350000, 0, 0, 874510000, 0, 0, 866670000, 0, 0, 858820000, 0, 0,
  850980000, 0, 0, 843140000, 0, 0, 835290000, 0, 0, 827450000, 0, 0,
  819610000, 0, 0, 811760000, 0, 0, 803920000, 0, 0, 796080000, 0, 0,
  788240000, 0, 0, 780390000, 0, 0, 772550000, 0, 0, 764710000, 0, 0,
  756860000, 0, 0, 749020000, 0, 0, 741180000, 0, 0, 733330000, 0, 0]

/-- src/palette.h:1588-1845. -/
def step32 : List Nat := [
  0, 0, 164710000, 0, 0, 164710000, 0, 0, 164710000, 0, 0, 164710000,
  0, 0, 164710000, 0, 0, 164710000, 0, 0, 164710000, 0, 0, 164710000,
  231370000, 0, 317650000, 231370000, 0, 317650000, 231370000, 0, 317650000, 231370000, 0, 317650000,
  231370000, 0, 317650000, 231370000, 0, 317650000, 231370000, 0, 317650000, 231370000, 0, 317650000,
  470590000, 0, 474510000, 470590000, 0, 474510000, 470590000, 0, 474510000, 470590000, 0, 474510000,
  470590000, 0, 474510000, 470590000, 0, 474510000, 470590000, 0, 474510000, 470590000, 0, 474510000,
  470590000, 0, 639220000, 470590000, 0, 639220000, 470590000, 0, 639220000, 470590000, 0, 639220000,
  470590000, 0, 639220000, 470590000, 0, 639220000, 470590000, 0, 639220000, 470590000, 0, 639220000,
  231370000, 0, 803920000, 231370000, 0, 803920000, 231370000, 0, 803920000, 231370000, 0, 803920000,
  231370000, 0, 803920000, 231370000, 0, 803920000, 231370000, 0, 803920000, 231370000, 0, 803920000,
  0, 0, 976470000, 0, 0, 976470000, 0, 0, 976470000, 0, 0, 976470000,
  0, 0, 976470000, 0, 0, 976470000, 0, 0, 976470000, 0, 0, 976470000,
  0, 50980000, 850980000, 0, 50980000, 850980000, 0, 50980000, 850980000, 0, 50980000, 850980000,
  0, 50980000, 850980000, 0, 50980000, 850980000, 0, 50980000, 850980000, 0, 50980000, 850980000,
  0, 196080000, 694120000, 0, 196080000, 694120000, 0, 196080000, 694120000, 0, 196080000, 694120000,
  0, 196080000, 694120000, 0, 196080000, 694120000, 0, 196080000, 694120000, 0, 196080000, 694120000,
  0, 333330000, 564710000, 0, 333330000, 564710000, 0, 333330000, 564710000, 0, 333330000, 564710000,
  0, 333330000, 564710000, 0, 333330000, 564710000, 0, 333330000, 564710000, 0, 333330000, 564710000,
  0, 423530000, 447060000, 0, 423530000, 447060000, 0, 423530000, 447060000, 0, 423530000, 447060000,
  0, 423530000, 447060000, 0, 423530000, 447060000, 0, 423530000, 447060000, 0, 423530000, 447060000,
  0, 509800000, 352940000, 0, 509800000, 352940000, 0, 509800000, 352940000, 0, 509800000, 352940000,
  0, 509800000, 352940000, 0, 509800000, 352940000, 0, 509800000, 352940000, 0, 509800000, 352940000,
  0, 592160000, 258820000, 0, 592160000, 258820000, 0, 592160000, 258820000, 0, 592160000, 258820000,
  0, 592160000, 258820000, 0, 592160000, 258820000, 0, 592160000, 258820000, 0, 592160000, 258820000,
  0, 670590000, 164710000, 0, 670590000, 164710000, 0, 670590000, 164710000, 0, 670590000, 164710000,
  0, 670590000, 164710000, 0, 670590000, 164710000, 0, 670590000, 164710000, 0, 670590000, 164710000,
  0, 749020000, 54900000, 0, 749020000, 54900000, 0, 749020000, 54900000, 0, 749020000, 54900000,
  0, 749020000, 54900000, 0, 749020000, 54900000, 0, 749020000, 54900000, 0, 749020000, 54900000,
  0, 823530000, 0, 0, 823530000, 0, 0, 823530000, 0, 0, 823530000, 0,
  0, 823530000, 0, 0, 823530000, 0, 0, 823530000, 0, 0, 823530000, 0,
  0, 898040000, 0, 0, 898040000, 0, 0, 898040000, 0, 0, 898040000, 0,
  0, 898040000, 0, 0, 898040000, 0, 0, 898040000, 0, 0, 898040000, 0,
  0, 972550000, 0, 0, 972550000, 0, 0, 972550000, 0, 0, 972550000, 0,
  0, 972550000, 0, 0, 972550000, 0, 0, 972550000, 0, 0, 972550000, 0,
  54900000, 952940000, 0, 54900000, 952940000, 0, 54900000, 952940000, 0, 54900000, 952940000, 0,
  54900000, 952940000, 0, 54900000, 952940000, 0, 54900000, 952940000, 0, 54900000, 952940000, 0,
  149020000, 882350000, 0, 149020000, 882350000, 0, 149020000, 882350000, 0, 149020000, 882350000, 0,
  149020000, 882350000, 0, 149020000, 882350000, 0, 149020000, 882350000, 0, 149020000, 882350000, 0,
  411760000, 807840000, 0, 411760000, 807840000, 0, 411760000, 807840000, 0, 411760000, 807840000, 0,
  411760000, 807840000, 0, 411760000, 807840000, 0, 411760000, 807840000, 0, 411760000, 807840000, 0,
  709800000, 811760000, 0, 709800000, 811760000, 0, 709800000, 811760000, 0, 709800000, 811760000, 0,
  709800000, 811760000, 0, 709800000, 811760000, 0, 709800000, 811760000, 0, 709800000, 811760000, 0,
  1000000000, 933330000, 0, 1000000000, 933330000, 0, 1000000000, 933330000, 0, 1000000000, 933330000, 0,
  1000000000, 933330000, 0, 1000000000, 933330000, 0, 1000000000, 933330000, 0, 1000000000, 933330000, 0,
  1000000000, 1000000000, 0, 1000000000, 1000000000, 0, 1000000000, 1000000000, 0, 1000000000, 1000000000, 0,
  1000000000, 1000000000, 0, 1000000000, 1000000000, 0, 1000000000, 1000000000, 0, 1000000000, 1000000000, 0,
  1000000000, 1000000000, 0, 1000000000, 1000000000, 0, 1000000000, 1000000000, 0, 1000000000, 1000000000, 0,
  1000000000, 1000000000, 0, 1000000000, 1000000000, 0, 1000000000, 1000000000, 0, 1000000000, 1000000000, 0,
  1000000000, 1000000000, 0, 1000000000, 1000000000, 0, 1000000000, 1000000000, 0, 1000000000, 1000000000, 0,
  1000000000, 1000000000, 0, 1000000000, 1000000000, 0, 1000000000, 1000000000, 0, 1000000000, 1000000000, 0,
  1000000000, 701960000, 0, 1000000000, 701960000, 0, 1000000000, 701960000, 0, 1000000000, 701960000, 0,
  1000000000, 701960000, 0, 1000000000, 701960000, 0, 1000000000, 701960000, 0, 1000000000, 701960000, 0,
  1000000000, 392160000, 0, 1000000000, 392160000, 0, 1000000000, 392160000, 0, 1000000000, 392160000, 0,
  1000000000, 392160000, 0, 1000000000, 392160000, 0, 1000000000, 392160000, 0, 1000000000, 392160000, 0,
  1000000000, 98040000, 0, 1000000000, 98040000, 0, 1000000000, 98040000, 0, 1000000000, 98040000, 0,
  1000000000, 98040000, 0, 1000000000, 98040000, 0, 1000000000, 98040000, 0, 1000000000, 98040000, 0,
  976470000, 0, 0, 976470000, 0, 0, 976470000, 0, 0, 976470000, 0, 0,
  976470000, 0, 0, 976470000, 0, 0, 976470000, 0, 0, 976470000, 0, 0,
  913730000, 0, 0, 913730000, 0, 0, 913730000, 0, 0, 913730000, 0, 0,
  913730000, 0, 0, 913730000, 0, 0, 913730000, 0, 0, 913730000, 0, 0,
  850980000, 0, 0, 850980000, 0, 0, 850980000, 0, 0, 850980000, 0, 0,
  850980000, 0, 0, 850980000, 0, 0, 850980000, 0, 0, 850980000, 0, 0,
  788240000, 0, 0, 788240000, 0, 0, 788240000, 0, 0, 788240000, 0, 0,
  788240000, 0, 0, 788240000, 0, 0, 788240000, 0, 0, 788240000, 0, 0]

/-- The table of names, src/palette.h:1855-1864. -/
def tables : List (List Char × List Nat) :=
  [(['r','a','i','n','b','o','w'], rainbow), (['j','h','_','c','o','l','o','r','s'], jh_colors), (['s','t','e','p','8'], step8),
   (['s','t','e','p','3','2'], step32), (['i','d','l','1'], idl1), (['i','d','l','2'], idl2), (['h','e','a','t'], heat)]

/-- A complete table with entries between 0 and 1. -/
def good (p : List Nat) : Bool := p.length == 768 && p.all (fun v => v <= 1000000000)

theorem jh_colors_good : good jh_colors = true := by decide +kernel
theorem step8_good : good step8 = true := by decide +kernel
theorem heat_good : good heat = true := by decide +kernel
theorem idl1_good : good idl1 = true := by decide +kernel
theorem idl2_good : good idl2 = true := by decide +kernel
theorem rainbow_good : good rainbow = true := by decide +kernel
theorem step32_good : good step32 = true := by decide +kernel

theorem tables_good : ∀ t ∈ tables, good t.2 = true := by
  intro t ht
  simp only [tables, List.mem_cons, List.not_mem_nil, or_false] at ht
  rcases ht with h | h | h | h | h | h | h <;> rw [h]
  · exact rainbow_good
  · exact jh_colors_good
  · exact step8_good
  · exact step32_good
  · exact idl1_good
  · exact idl2_good
  · exact heat_good

end Athena.Image
