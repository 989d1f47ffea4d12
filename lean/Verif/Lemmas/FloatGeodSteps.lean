import Verif.Lemmas.FloatGeod
/-!
# The operations of `geo_to_gg` at the pole, for the default ellipsoid and the radii 6371.2, 6771.2 and 6871.2
-/
namespace ChaosMagPy.FloatGeod
open ChaosMagPy.Spec ChaosMagPy.Float

variable (R : Rounding)

/-! Steps that depend on the ellipsoid only. -/

theorem v_a : R (6378137 / 1000) = (7012835795048333 / 1099511627776) :=
  rnd_val R (7012835795048333) (-40) (12) (by norm_num) (by norm_num) (by norm_num) (by norm_num) (by norm_num) (by norm_num) (by norm_num)

theorem v_b : R (6356752 / 1000) = (873665342361043 / 137438953472) :=
  rnd_val R (873665342361043) (-37) (12) (by norm_num) (by norm_num) (by norm_num) (by norm_num) (by norm_num) (by norm_num) (by norm_num)

theorem v_a2 : R ((7012835795048333 / 1099511627776) * (7012835795048333 / 1099511627776)) = (682507743214755 / 16777216) :=
  rnd_val R (682507743214755) (-24) (25) (by norm_num) (by norm_num) (by norm_num) (by norm_num) (by norm_num) (by norm_num) (by norm_num)

theorem v_b2 : R ((873665342361043 / 137438953472) * (873665342361043 / 137438953472)) = (5423509680062739 / 134217728) :=
  rnd_val R (5423509680062739) (-27) (25) (by norm_num) (by norm_num) (by norm_num) (by norm_num) (by norm_num) (by norm_num) (by norm_num)

theorem v_d : R ((682507743214755 / 16777216) - (5423509680062739 / 134217728)) = (36552265655301 / 134217728) :=
  rnd_val R (36552265655301) (-27) (18) (by norm_num) (by norm_num) (by norm_num) (by norm_num) (by norm_num) (by norm_num) (by norm_num)

theorem v_e2 : R ((36552265655301 / 134217728) / (682507743214755 / 16777216)) = (7718207876587895 / 1152921504606846976) :=
  rnd_val R (7718207876587895) (-60) (-8) (by norm_num) (by norm_num) (by norm_num) (by norm_num) (by norm_num) (by norm_num) (by norm_num)

theorem v_e4 : R ((7718207876587895 / 1152921504606846976) * (7718207876587895 / 1152921504606846976)) = (6613679917746687 / 147573952589676412928) :=
  rnd_val R (6613679917746687) (-67) (-15) (by norm_num) (by norm_num) (by norm_num) (by norm_num) (by norm_num) (by norm_num) (by norm_num)

theorem v_ep2 : R ((36552265655301 / 134217728) / (5423509680062739 / 134217728)) = (7770225481668415 / 1152921504606846976) :=
  rnd_val R (7770225481668415) (-60) (-8) (by norm_num) (by norm_num) (by norm_num) (by norm_num) (by norm_num) (by norm_num) (by norm_num)

theorem v_k1 : R (1 - (7718207876587895 / 1152921504606846976)) = (8946900755705149 / 9007199254740992) :=
  rnd_val R (8946900755705149) (-53) (-1) (by norm_num) (by norm_num) (by norm_num) (by norm_num) (by norm_num) (by norm_num) (by norm_num)

theorem v_ed : R ((7718207876587895 / 1152921504606846976) * (36552265655301 / 134217728)) = (4009137692945009 / 2199023255552) :=
  rnd_val R (4009137692945009) (-41) (10) (by norm_num) (by norm_num) (by norm_num) (by norm_num) (by norm_num) (by norm_num) (by norm_num)

theorem v_54b2 : R (54 * (5423509680062739 / 134217728)) = (572010786569117 / 262144) :=
  rnd_val R (572010786569117) (-18) (31) (by norm_num) (by norm_num) (by norm_num) (by norm_num) (by norm_num) (by norm_num) (by norm_num)

theorem v_2e4 : R (2 * (6613679917746687 / 147573952589676412928)) = (6613679917746687 / 73786976294838206464) :=
  rnd_val R (6613679917746687) (-66) (-14) (by norm_num) (by norm_num) (by norm_num) (by norm_num) (by norm_num) (by norm_num) (by norm_num)

theorem v_ha2 : R (1 / 2 * (682507743214755 / 16777216)) = (682507743214755 / 33554432) :=
  rnd_val R (682507743214755) (-25) (24) (by norm_num) (by norm_num) (by norm_num) (by norm_num) (by norm_num) (by norm_num) (by norm_num)

theorem v_27 : R (3 * 9) = 27 :=
  rnd_val R (27) (0) (4) (by norm_num) (by norm_num) (by norm_num) (by norm_num) (by norm_num) (by norm_num) (by norm_num)

theorem v_9 : R (3 * 3) = 9 :=
  rnd_val R (9) (0) (3) (by norm_num) (by norm_num) (by norm_num) (by norm_num) (by norm_num) (by norm_num) (by norm_num)

theorem v_3 : R (2 + 1) = 3 :=
  rnd_val R (3) (0) (1) (by norm_num) (by norm_num) (by norm_num) (by norm_num) (by norm_num) (by norm_num) (by norm_num)

theorem v_2 : R (1 + 1) = 2 :=
  rnd_val R (1) (1) (0) (by norm_num) (by norm_num) (by norm_num) (by norm_num) (by norm_num) (by norm_num) (by norm_num)

/-! Steps for the radius 6371.2. -/

theorem w_z : R (63712 / 10) = (7005208482886451 / 1099511627776) :=
  rnd_val R (7005208482886451) (-40) (12) (by norm_num) (by norm_num) (by norm_num) (by norm_num) (by norm_num) (by norm_num) (by norm_num)

theorem w_z2 : R ((7005208482886451 / 1099511627776) * (7005208482886451 / 1099511627776)) = (681023930147799 / 16777216) :=
  rnd_val R (681023930147799) (-24) (25) (by norm_num) (by norm_num) (by norm_num) (by norm_num) (by norm_num) (by norm_num) (by norm_num)

theorem w_F : R ((572010786569117 / 262144) * (681023930147799 / 16777216)) = 88574105110691088 :=
  rnd_val R (5535881569418193) (4) (56) (by norm_num) (by norm_num) (by norm_num) (by norm_num) (by norm_num) (by norm_num) (by norm_num)

theorem w_kz : R ((8946900755705149 / 9007199254740992) * (681023930147799 / 16777216)) = (676464830295113 / 16777216) :=
  rnd_val R (676464830295113) (-24) (25) (by norm_num) (by norm_num) (by norm_num) (by norm_num) (by norm_num) (by norm_num) (by norm_num)

theorem w_G : R ((676464830295113 / 16777216) - (4009137692945009 / 2199023255552)) = (5411473944015387 / 134217728) :=
  rnd_val R (5411473944015387) (-27) (25) (by norm_num) (by norm_num) (by norm_num) (by norm_num) (by norm_num) (by norm_num) (by norm_num)

theorem w_G2 : R ((5411473944015387 / 134217728) * (5411473944015387 / 134217728)) = (6502365367646023 / 4) :=
  rnd_val R (6502365367646023) (-2) (50) (by norm_num) (by norm_num) (by norm_num) (by norm_num) (by norm_num) (by norm_num) (by norm_num)

theorem w_PG : R (27 * (6502365367646023 / 4)) = 43890966231610656 :=
  rnd_val R (1371592694737833) (5) (55) (by norm_num) (by norm_num) (by norm_num) (by norm_num) (by norm_num) (by norm_num) (by norm_num)

theorem w_P : R (88574105110691088 / 43890966231610656) = (2272120786007501 / 1125899906842624) :=
  rnd_val R (2272120786007501) (-50) (1) (by norm_num) (by norm_num) (by norm_num) (by norm_num) (by norm_num) (by norm_num) (by norm_num)

theorem w_q : R ((6613679917746687 / 73786976294838206464) * (2272120786007501 / 1125899906842624)) = (6673363911741171 / 36893488147419103232) :=
  rnd_val R (6673363911741171) (-65) (-13) (by norm_num) (by norm_num) (by norm_num) (by norm_num) (by norm_num) (by norm_num) (by norm_num)

theorem w_Q2 : R (1 + (6673363911741171 / 36893488147419103232)) = (1126103561747157 / 1125899906842624) :=
  rnd_val R (1126103561747157) (-50) (0) (by norm_num) (by norm_num) (by norm_num) (by norm_num) (by norm_num) (by norm_num) (by norm_num)

theorem w_Q : R (Real.sqrt ((1126103561747157 / 1125899906842624))) = (4504006918762485 / 4503599627370496) :=
  rnd_root R (4504006918762485) (-52) (0) (by norm_num) (by norm_num) (by norm_num) (by norm_num) (by norm_num) (by norm_num) (by norm_num) (by norm_num) (by norm_num) (by norm_num)

theorem w_iQ : R (1 / (4504006918762485 / 4503599627370496)) = (4503192372809329 / 4503599627370496) :=
  rnd_val R (4503192372809329) (-52) (-1) (by norm_num) (by norm_num) (by norm_num) (by norm_num) (by norm_num) (by norm_num) (by norm_num)

theorem w_oQ : R (1 + (4503192372809329 / 4503599627370496)) = (9006792000179825 / 4503599627370496) :=
  rnd_val R (9006792000179825) (-52) (0) (by norm_num) (by norm_num) (by norm_num) (by norm_num) (by norm_num) (by norm_num) (by norm_num)

theorem w_A : R ((682507743214755 / 33554432) * (9006792000179825 / 4503599627370496)) = (170619221019559 / 4194304) :=
  rnd_val R (170619221019559) (-22) (25) (by norm_num) (by norm_num) (by norm_num) (by norm_num) (by norm_num) (by norm_num) (by norm_num)

theorem w_Pk : R ((2272120786007501 / 1125899906842624) * (8946900755705149 / 9007199254740992)) = (2256910122942367 / 1125899906842624) :=
  rnd_val R (2256910122942367) (-50) (1) (by norm_num) (by norm_num) (by norm_num) (by norm_num) (by norm_num) (by norm_num) (by norm_num)

theorem w_Pkz : R ((2256910122942367 / 1125899906842624) * (681023930147799 / 16777216)) = (2730277873859711 / 33554432) :=
  rnd_val R (2730277873859711) (-25) (26) (by norm_num) (by norm_num) (by norm_num) (by norm_num) (by norm_num) (by norm_num) (by norm_num)

theorem w_Qq : R ((4504006918762485 / 4503599627370496) * (2251901636533245 / 1125899906842624)) = (1126052645718889 / 562949953421312) :=
  rnd_val R (1126052645718889) (-49) (1) (by norm_num) (by norm_num) (by norm_num) (by norm_num) (by norm_num) (by norm_num) (by norm_num)

theorem w_B : R ((2730277873859711 / 33554432) / (1126052645718889 / 562949953421312)) = (5459815072625891 / 134217728) :=
  rnd_val R (5459815072625891) (-27) (25) (by norm_num) (by norm_num) (by norm_num) (by norm_num) (by norm_num) (by norm_num) (by norm_num)

theorem w_rad : R ((170619221019559 / 4194304) - (5459815072625891 / 134217728)) = (-3 / 134217728) :=
  rnd_val R (-3) (-27) (-26) (by norm_num) (by norm_num) (by norm_num) (by norm_num) (by norm_num) (by norm_num) (by norm_num)

theorem w_zz : R ((7005208482886451 / 1099511627776)) = (7005208482886451 / 1099511627776) :=
  rnd_val R (7005208482886451) (-40) (12) (by norm_num) (by norm_num) (by norm_num) (by norm_num) (by norm_num) (by norm_num) (by norm_num)

theorem w_kzz : R ((676464830295113 / 16777216)) = (676464830295113 / 16777216) :=
  rnd_val R (676464830295113) (-24) (25) (by norm_num) (by norm_num) (by norm_num) (by norm_num) (by norm_num) (by norm_num) (by norm_num)

theorem w_z2z : R ((681023930147799 / 16777216)) = (681023930147799 / 16777216) :=
  rnd_val R (681023930147799) (-24) (25) (by norm_num) (by norm_num) (by norm_num) (by norm_num) (by norm_num) (by norm_num) (by norm_num)

theorem w_radd : R ((-3 / 134217728)) = (-3 / 134217728) :=
  rnd_val R (-3) (-27) (-26) (by norm_num) (by norm_num) (by norm_num) (by norm_num) (by norm_num) (by norm_num) (by norm_num)

/-! Steps for the radius 6771.2. -/

theorem x_z : R (67712 / 10) = (7445013133996851 / 1099511627776) :=
  rnd_val R (7445013133996851) (-40) (12) (by norm_num) (by norm_num) (by norm_num) (by norm_num) (by norm_num) (by norm_num) (by norm_num)

theorem x_z2 : R ((7445013133996851 / 1099511627776) * (7445013133996851 / 1099511627776)) = (769221083571159 / 16777216) :=
  rnd_val R (769221083571159) (-24) (25) (by norm_num) (by norm_num) (by norm_num) (by norm_num) (by norm_num) (by norm_num) (by norm_num)

theorem x_F : R ((572010786569117 / 262144) * (769221083571159 / 16777216)) = 100045044077680160 :=
  rnd_val R (3126407627427505) (5) (56) (by norm_num) (by norm_num) (by norm_num) (by norm_num) (by norm_num) (by norm_num) (by norm_num)

theorem x_kz : R ((8946900755705149 / 9007199254740992) * (769221083571159 / 16777216)) = (3056286199191021 / 67108864) :=
  rnd_val R (3056286199191021) (-26) (25) (by norm_num) (by norm_num) (by norm_num) (by norm_num) (by norm_num) (by norm_num) (by norm_num)

theorem x_G : R ((3056286199191021 / 67108864) - (4009137692945009 / 2199023255552)) = (6112327700036525 / 134217728) :=
  rnd_val R (6112327700036525) (-27) (25) (by norm_num) (by norm_num) (by norm_num) (by norm_num) (by norm_num) (by norm_num) (by norm_num)

theorem x_G2 : R ((6112327700036525 / 134217728) * (6112327700036525 / 134217728)) = 2073927136283171 :=
  rnd_val R (2073927136283171) (0) (50) (by norm_num) (by norm_num) (by norm_num) (by norm_num) (by norm_num) (by norm_num) (by norm_num)

theorem x_PG : R (27 * 2073927136283171) = 55996032679645616 :=
  rnd_val R (3499752042477851) (4) (55) (by norm_num) (by norm_num) (by norm_num) (by norm_num) (by norm_num) (by norm_num) (by norm_num)

theorem x_P : R (100045044077680160 / 55996032679645616) = (8046334743144819 / 4503599627370496) :=
  rnd_val R (8046334743144819) (-52) (0) (by norm_num) (by norm_num) (by norm_num) (by norm_num) (by norm_num) (by norm_num) (by norm_num)

theorem x_q : R ((6613679917746687 / 73786976294838206464) * (8046334743144819 / 4503599627370496)) = (369259362685589 / 2305843009213693952) :=
  rnd_val R (369259362685589) (-61) (-13) (by norm_num) (by norm_num) (by norm_num) (by norm_num) (by norm_num) (by norm_num) (by norm_num)

theorem x_Q2 : R (1 + (369259362685589 / 2305843009213693952)) = (4504320837063241 / 4503599627370496) :=
  rnd_val R (4504320837063241) (-52) (0) (by norm_num) (by norm_num) (by norm_num) (by norm_num) (by norm_num) (by norm_num) (by norm_num)

theorem x_Q : R (Real.sqrt ((4504320837063241 / 4503599627370496))) = (562995027222643 / 562949953421312) :=
  rnd_root R (562995027222643) (-49) (0) (by norm_num) (by norm_num) (by norm_num) (by norm_num) (by norm_num) (by norm_num) (by norm_num) (by norm_num) (by norm_num) (by norm_num)

theorem x_iQ : R (1 / (562995027222643 / 562949953421312)) = (4503239065828985 / 4503599627370496) :=
  rnd_val R (4503239065828985) (-52) (-1) (by norm_num) (by norm_num) (by norm_num) (by norm_num) (by norm_num) (by norm_num) (by norm_num)

theorem x_oQ : R (1 + (4503239065828985 / 4503599627370496)) = (9006838693199481 / 4503599627370496) :=
  rnd_val R (9006838693199481) (-52) (0) (by norm_num) (by norm_num) (by norm_num) (by norm_num) (by norm_num) (by norm_num) (by norm_num)

theorem x_A : R ((682507743214755 / 33554432) * (9006838693199481 / 4503599627370496)) = (2729921688702191 / 67108864) :=
  rnd_val R (2729921688702191) (-26) (25) (by norm_num) (by norm_num) (by norm_num) (by norm_num) (by norm_num) (by norm_num) (by norm_num)

theorem x_Pk : R ((8046334743144819 / 4503599627370496) * (8946900755705149 / 9007199254740992)) = (3996234365316541 / 2251799813685248) :=
  rnd_val R (3996234365316541) (-51) (0) (by norm_num) (by norm_num) (by norm_num) (by norm_num) (by norm_num) (by norm_num) (by norm_num)

theorem x_Pkz : R ((3996234365316541 / 2251799813685248) * (769221083571159 / 16777216)) = (170640597690513 / 2097152) :=
  rnd_val R (170640597690513) (-21) (26) (by norm_num) (by norm_num) (by norm_num) (by norm_num) (by norm_num) (by norm_num) (by norm_num)

theorem x_oq : R (1 + (562995027222643 / 562949953421312)) = (1125944980643955 / 562949953421312) :=
  rnd_val R (1125944980643955) (-49) (1) (by norm_num) (by norm_num) (by norm_num) (by norm_num) (by norm_num) (by norm_num) (by norm_num)

theorem x_Qq : R ((562995027222643 / 562949953421312) * (1125944980643955 / 562949953421312)) = (281508782963887 / 140737488355328) :=
  rnd_val R (281508782963887) (-47) (1) (by norm_num) (by norm_num) (by norm_num) (by norm_num) (by norm_num) (by norm_num) (by norm_num)

theorem x_B : R ((170640597690513 / 2097152) / (281508782963887 / 140737488355328)) = (5459843377404383 / 134217728) :=
  rnd_val R (5459843377404383) (-27) (25) (by norm_num) (by norm_num) (by norm_num) (by norm_num) (by norm_num) (by norm_num) (by norm_num)

theorem x_rad : R ((2729921688702191 / 67108864) - (5459843377404383 / 134217728)) = (-1 / 134217728) :=
  rnd_val R (-1) (-27) (-28) (by norm_num) (by norm_num) (by norm_num) (by norm_num) (by norm_num) (by norm_num) (by norm_num)

theorem x_zz : R ((7445013133996851 / 1099511627776)) = (7445013133996851 / 1099511627776) :=
  rnd_val R (7445013133996851) (-40) (12) (by norm_num) (by norm_num) (by norm_num) (by norm_num) (by norm_num) (by norm_num) (by norm_num)

theorem x_kzz : R ((3056286199191021 / 67108864)) = (3056286199191021 / 67108864) :=
  rnd_val R (3056286199191021) (-26) (25) (by norm_num) (by norm_num) (by norm_num) (by norm_num) (by norm_num) (by norm_num) (by norm_num)

theorem x_z2z : R ((769221083571159 / 16777216)) = (769221083571159 / 16777216) :=
  rnd_val R (769221083571159) (-24) (25) (by norm_num) (by norm_num) (by norm_num) (by norm_num) (by norm_num) (by norm_num) (by norm_num)

theorem x_radd : R ((-1 / 134217728)) = (-1 / 134217728) :=
  rnd_val R (-1) (-27) (-28) (by norm_num) (by norm_num) (by norm_num) (by norm_num) (by norm_num) (by norm_num) (by norm_num)

/-! Steps for the radius 6871.2. -/

theorem y_z : R (68712 / 10) = (7554964296774451 / 1099511627776) :=
  rnd_val R (7554964296774451) (-40) (12) (by norm_num) (by norm_num) (by norm_num) (by norm_num) (by norm_num) (by norm_num) (by norm_num)

theorem y_z2 : R ((7554964296774451 / 1099511627776) * (7554964296774451 / 1099511627776)) = (792109232726999 / 16777216) :=
  rnd_val R (792109232726999) (-24) (25) (by norm_num) (by norm_num) (by norm_num) (by norm_num) (by norm_num) (by norm_num) (by norm_num)

theorem y_F : R ((572010786569117 / 262144) * (792109232726999 / 16777216)) = 103021881218599088 :=
  rnd_val R (6438867576162443) (4) (56) (by norm_num) (by norm_num) (by norm_num) (by norm_num) (by norm_num) (by norm_num) (by norm_num)

theorem y_kz : R ((8946900755705149 / 9007199254740992) * (792109232726999 / 16777216)) = (6294451797904633 / 134217728) :=
  rnd_val R (6294451797904633) (-27) (25) (by norm_num) (by norm_num) (by norm_num) (by norm_num) (by norm_num) (by norm_num) (by norm_num)

theorem y_G : R ((6294451797904633 / 134217728) - (4009137692945009 / 2199023255552)) = (1573551774889779 / 33554432) :=
  rnd_val R (1573551774889779) (-25) (25) (by norm_num) (by norm_num) (by norm_num) (by norm_num) (by norm_num) (by norm_num) (by norm_num)

theorem y_G2 : R ((1573551774889779 / 33554432) * (1573551774889779 / 33554432)) = (8796750663928683 / 4) :=
  rnd_val R (8796750663928683) (-2) (50) (by norm_num) (by norm_num) (by norm_num) (by norm_num) (by norm_num) (by norm_num) (by norm_num)

theorem y_PG : R (27 * (8796750663928683 / 4)) = 59378066981518608 :=
  rnd_val R (3711129186344913) (4) (55) (by norm_num) (by norm_num) (by norm_num) (by norm_num) (by norm_num) (by norm_num) (by norm_num)

theorem y_P : R (103021881218599088 / 59378066981518608) = (7813816270096845 / 4503599627370496) :=
  rnd_val R (7813816270096845) (-52) (0) (by norm_num) (by norm_num) (by norm_num) (by norm_num) (by norm_num) (by norm_num) (by norm_num)

theorem y_q : R ((6613679917746687 / 73786976294838206464) * (7813816270096845 / 4503599627370496)) = (2868709700149065 / 18446744073709551616) :=
  rnd_val R (2868709700149065) (-64) (-13) (by norm_num) (by norm_num) (by norm_num) (by norm_num) (by norm_num) (by norm_num) (by norm_num)

theorem y_Q2 : R (1 + (2868709700149065 / 18446744073709551616)) = (2252149997974817 / 2251799813685248) :=
  rnd_val R (2252149997974817) (-51) (0) (by norm_num) (by norm_num) (by norm_num) (by norm_num) (by norm_num) (by norm_num) (by norm_num)

theorem y_Q : R (Real.sqrt ((2252149997974817 / 2251799813685248))) = (2251974899023283 / 2251799813685248) :=
  rnd_root R (2251974899023283) (-51) (0) (by norm_num) (by norm_num) (by norm_num) (by norm_num) (by norm_num) (by norm_num) (by norm_num) (by norm_num) (by norm_num) (by norm_num)

theorem y_iQ : R (1 / (2251974899023283 / 2251799813685248)) = (1125812370979827 / 1125899906842624) :=
  rnd_val R (1125812370979827) (-50) (-1) (by norm_num) (by norm_num) (by norm_num) (by norm_num) (by norm_num) (by norm_num) (by norm_num)

theorem y_oQ : R (1 + (1125812370979827 / 1125899906842624)) = (2251712277822451 / 1125899906842624) :=
  rnd_val R (2251712277822451) (-50) (0) (by norm_num) (by norm_num) (by norm_num) (by norm_num) (by norm_num) (by norm_num) (by norm_num)

theorem y_A : R ((682507743214755 / 33554432) * (2251712277822451 / 1125899906842624)) = (2729924846366239 / 67108864) :=
  rnd_val R (2729924846366239) (-26) (25) (by norm_num) (by norm_num) (by norm_num) (by norm_num) (by norm_num) (by norm_num) (by norm_num)

theorem y_Pk : R ((7813816270096845 / 4503599627370496) * (8946900755705149 / 9007199254740992)) = (3880753423716779 / 2251799813685248) :=
  rnd_val R (3880753423716779) (-51) (0) (by norm_num) (by norm_num) (by norm_num) (by norm_num) (by norm_num) (by norm_num) (by norm_num)

theorem y_Pkz : R ((3880753423716779 / 2251799813685248) * (792109232726999 / 16777216)) = (2730243246474171 / 33554432) :=
  rnd_val R (2730243246474171) (-25) (26) (by norm_num) (by norm_num) (by norm_num) (by norm_num) (by norm_num) (by norm_num) (by norm_num)

theorem y_oq : R (1 + (2251974899023283 / 2251799813685248)) = (4503774712708531 / 2251799813685248) :=
  rnd_val R (4503774712708531) (-51) (1) (by norm_num) (by norm_num) (by norm_num) (by norm_num) (by norm_num) (by norm_num) (by norm_num)

theorem y_Qq : R ((2251974899023283 / 2251799813685248) * (4503774712708531 / 2251799813685248)) = (1126031224249525 / 562949953421312) :=
  rnd_val R (1126031224249525) (-49) (1) (by norm_num) (by norm_num) (by norm_num) (by norm_num) (by norm_num) (by norm_num) (by norm_num)

theorem y_B : R ((2730243246474171 / 33554432) / (1126031224249525 / 562949953421312)) = (2729924846366239 / 67108864) :=
  rnd_val R (2729924846366239) (-26) (25) (by norm_num) (by norm_num) (by norm_num) (by norm_num) (by norm_num) (by norm_num) (by norm_num)

theorem y_zz : R ((7554964296774451 / 1099511627776)) = (7554964296774451 / 1099511627776) :=
  rnd_val R (7554964296774451) (-40) (12) (by norm_num) (by norm_num) (by norm_num) (by norm_num) (by norm_num) (by norm_num) (by norm_num)

theorem y_kzz : R ((6294451797904633 / 134217728)) = (6294451797904633 / 134217728) :=
  rnd_val R (6294451797904633) (-27) (25) (by norm_num) (by norm_num) (by norm_num) (by norm_num) (by norm_num) (by norm_num) (by norm_num)

theorem y_z2z : R ((792109232726999 / 16777216)) = (792109232726999 / 16777216) :=
  rnd_val R (792109232726999) (-24) (25) (by norm_num) (by norm_num) (by norm_num) (by norm_num) (by norm_num) (by norm_num) (by norm_num)

theorem y_U : R (Real.sqrt ((792109232726999 / 16777216))) = (7554964296774451 / 1099511627776) :=
  rnd_root R (7554964296774451) (-40) (12) (by norm_num) (by norm_num) (by norm_num) (by norm_num) (by norm_num) (by norm_num) (by norm_num) (by norm_num) (by norm_num) (by norm_num)

theorem y_V : R (Real.sqrt ((6294451797904633 / 134217728))) = (7529633559682019 / 1099511627776) :=
  rnd_root R (7529633559682019) (-40) (12) (by norm_num) (by norm_num) (by norm_num) (by norm_num) (by norm_num) (by norm_num) (by norm_num) (by norm_num) (by norm_num) (by norm_num)

theorem y_aV : R ((7012835795048333 / 1099511627776) * (7529633559682019 / 1099511627776)) = (5862430957452343 / 134217728) :=
  rnd_val R (5862430957452343) (-27) (25) (by norm_num) (by norm_num) (by norm_num) (by norm_num) (by norm_num) (by norm_num) (by norm_num)

theorem y_w : R ((5423509680062739 / 134217728) / (5862430957452343 / 134217728)) = (8332828600095079 / 9007199254740992) :=
  rnd_val R (8332828600095079) (-53) (-1) (by norm_num) (by norm_num) (by norm_num) (by norm_num) (by norm_num) (by norm_num) (by norm_num)

theorem y_ow : R (1 - (8332828600095079 / 9007199254740992)) = (674370654645913 / 9007199254740992) :=
  rnd_val R (674370654645913) (-53) (-4) (by norm_num) (by norm_num) (by norm_num) (by norm_num) (by norm_num) (by norm_num) (by norm_num)

theorem y_h : R ((7554964296774451 / 1099511627776) * (674370654645913 / 9007199254740992)) = (4525132463088865 / 8796093022208) :=
  rnd_val R (4525132463088865) (-43) (9) (by norm_num) (by norm_num) (by norm_num) (by norm_num) (by norm_num) (by norm_num) (by norm_num)

/-- `1 + Q` is a tie here. -/
theorem w_oq (hT : TiesToEven R) : R (1 + (4504006918762485 / 4503599627370496)) = (2251901636533245 / 1125899906842624) := by
  have h := hT 4503803273066490 (-51) (by norm_num) (by norm_num) (by norm_num) (by norm_num)
  rw [if_pos (by decide)] at h
  calc R (1 + (4504006918762485 / 4503599627370496)) = R ((((4503803273066490 : ℕ) : ℝ) + 1 / 2) * (2 : ℝ) ^ (-51 : ℤ)) := by congr 1; norm_num
    _ = _ := h
    _ = _ := by norm_num

end ChaosMagPy.FloatGeod
