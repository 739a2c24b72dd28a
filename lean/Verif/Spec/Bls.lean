import Verif.Spec.CurvePoints
/-! Prices and results of the BLS12-381 precompiles (EIP-2537). -/
namespace Verif.Spec.Curve

/-- EIP-2537: discounts for 1 to 128 pairs, in thousandths. -/
def discountG1 : List Nat :=
  [1000, 949, 848, 797, 764, 750, 738, 728, 719, 712, 705, 698, 692, 687, 682, 677, 673, 669, 665, 661,
   658, 654, 651, 648, 645, 642, 640, 637, 635, 632, 630, 627, 625, 623, 621, 619, 617, 615, 613, 611,
   609, 608, 606, 604, 603, 601, 599, 598, 596, 595, 593, 592, 591, 589, 588, 586, 585, 584, 582, 581,
   580, 579, 577, 576, 575, 574, 573, 572, 570, 569, 568, 567, 566, 565, 564, 563, 562, 561, 560, 559,
   558, 557, 556, 555, 554, 553, 552, 551, 550, 549, 548, 547, 547, 546, 545, 544, 543, 542, 541, 540,
   540, 539, 538, 537, 536, 536, 535, 534, 533, 532, 532, 531, 530, 529, 528, 528, 527, 526, 525, 525,
   524, 523, 522, 522, 521, 520, 520, 519]
def discountG2 : List Nat :=
  [1000, 1000, 923, 884, 855, 832, 812, 796, 782, 770, 759, 749, 740, 732, 724, 717, 711, 704, 699, 693,
   688, 683, 679, 674, 670, 666, 663, 659, 655, 652, 649, 646, 643, 640, 637, 634, 632, 629, 627, 624,
   622, 620, 618, 615, 613, 611, 609, 607, 606, 604, 602, 600, 598, 597, 595, 593, 592, 590, 589, 587,
   586, 584, 583, 582, 580, 579, 578, 576, 575, 574, 573, 571, 570, 569, 568, 567, 566, 565, 563, 562,
   561, 560, 559, 558, 557, 556, 555, 554, 553, 552, 552, 551, 550, 549, 548, 547, 546, 545, 545, 544,
   543, 542, 541, 541, 540, 539, 538, 537, 537, 536, 535, 535, 534, 533, 532, 532, 531, 530, 530, 529,
   528, 528, 527, 526, 526, 525, 524, 524]

/-- EIP-2537: the price of a multiplication of `k` pairs; beyond 128 pairs the last discount applies. -/
def msmPrice (table : List Nat) (one k : Nat) : Nat := k * one * table.getD (min k 128 - 1) 0 / 1000

/-- The sum of `k + 1` terms, from left to right. -/
def sum {G : Type} (add : G → G → G) (term : Nat → G) : Nat → G
  | 0 => term 0
  | k + 1 => add (sum add term k) (term (k + 1))

end Verif.Spec.Curve
