import Mathlib.Analysis.SpecialFunctions.Trigonometric.Basic

/-!
# Generated by tools/gen_kin.py from src/kinematics/robots/mini_cheetah/*.cpp: do not edit

Each definition is the function `output1` of the file cited, assignment by assignment; `o k` is `p_output1(k)`,
the coefficient `(k % rows, k / rows)` of the returned matrix (Eigen matrices are column-major).
-/
namespace Drift.Cheetah

/-- H_Body_to_FrontLeftFoot.cpp:54-135, a 4 x 4 matrix -/
noncomputable def H_FrontLeft (q : Fin 12 → ℝ) : Matrix (Fin 4) (Fin 4) ℝ :=
  let t682 : ℝ := Real.cos (q 5)
  let t697 : ℝ := Real.sin (q 4)
  let t668 : ℝ := Real.cos (q 4)
  let t703 : ℝ := Real.sin (q 3)
  let t698 : ℝ := Real.sin (q 5)
  let t718 : ℝ := Real.cos (q 3)
  let t754 : ℝ := -1 * t682
  let t756 : ℝ := 1 + t754
  let t735 : ℝ := -1 * t682 * t697
  let t739 : ℝ := -1 * t668 * t698
  let t694 : ℝ := t668 * t682
  let t701 : ℝ := -1 * t697 * t698
  let t757 : ℝ := 0.19 * t756
  let t759 : ℝ := -0.209 * t698
  let t761 : ℝ := 0 + t757 + t759
  let t763 : ℝ := -0.209 * t756
  let t765 : ℝ := -0.19 * t698
  let t766 : ℝ := 0 + t763 + t765
  let t711 : ℝ := -1 * t682 * t703 * t697
  let t715 : ℝ := -1 * t668 * t703 * t698
  let t742 : ℝ := -1 * t668 * t682 * t703
  let t744 : ℝ := t703 * t697 * t698
  let t777 : ℝ := -0.19 * t697
  let t778 : ℝ := 0 + t777
  let t721 : ℝ := t718 * t682 * t697
  let t722 : ℝ := t718 * t668 * t698
  let t746 : ℝ := t718 * t668 * t682
  let t749 : ℝ := -1 * t718 * t697 * t698
  !![(0 + t694 + t701), 0, (0 + t735 + t739), (0 + 0.19 * (1 - 1 * t668) + 0.19 * (t694 + t701) - 0.4165 * (t735 + t739) + t668 * t761 - 1 * t697 * t766);
    (0 + t711 + t715), (0 + t718), (0 + t742 + t744), (0 + 0.19 * (t711 + t715) + 0.049 * (1 - 1 * t718) + 0.111 * t718 - 0.4165 * (t742 + t744) - 1 * t697 * t703 * t761 - 1 * t668 * t703 * t766 - 1 * t703 * t778);
    (0 + t721 + t722), (0 + t703), (0 + t746 + t749), (0 + 0.062 * t703 + 0.19 * (t721 + t722) - 0.4165 * (t746 + t749) + t697 * t718 * t761 + t668 * t718 * t766 + t718 * t778);
    0, 0, 0, 1]

/-- H_Body_to_FrontRightFoot.cpp:54-135, a 4 x 4 matrix -/
noncomputable def H_FrontRight (q : Fin 12 → ℝ) : Matrix (Fin 4) (Fin 4) ℝ :=
  let t810 : ℝ := Real.cos (q 2)
  let t820 : ℝ := Real.sin (q 1)
  let t794 : ℝ := Real.cos (q 1)
  let t824 : ℝ := Real.sin (q 0)
  let t821 : ℝ := Real.sin (q 2)
  let t836 : ℝ := Real.cos (q 0)
  let t872 : ℝ := -1 * t810
  let t874 : ℝ := 1 + t872
  let t853 : ℝ := -1 * t810 * t820
  let t857 : ℝ := -1 * t794 * t821
  let t817 : ℝ := t794 * t810
  let t822 : ℝ := -1 * t820 * t821
  let t875 : ℝ := 0.19 * t874
  let t877 : ℝ := -0.209 * t821
  let t879 : ℝ := 0 + t875 + t877
  let t881 : ℝ := -0.209 * t874
  let t883 : ℝ := -0.19 * t821
  let t884 : ℝ := 0 + t881 + t883
  let t831 : ℝ := -1 * t810 * t824 * t820
  let t834 : ℝ := -1 * t794 * t824 * t821
  let t860 : ℝ := -1 * t794 * t810 * t824
  let t862 : ℝ := t824 * t820 * t821
  let t895 : ℝ := -0.19 * t820
  let t896 : ℝ := 0 + t895
  let t839 : ℝ := t836 * t810 * t820
  let t840 : ℝ := t836 * t794 * t821
  let t864 : ℝ := t836 * t794 * t810
  let t867 : ℝ := -1 * t836 * t820 * t821
  !![(0 + t817 + t822), 0, (0 + t853 + t857), (0 + 0.19 * (1 - 1 * t794) + 0.19 * (t817 + t822) - 0.4165 * (t853 + t857) + t794 * t879 - 1 * t820 * t884);
    (0 + t831 + t834), (0 + t836), (0 + t860 + t862), (0 + 0.19 * (t831 + t834) - 0.049 * (1 - 1 * t836) - 0.111 * t836 - 0.4165 * (t860 + t862) - 1 * t820 * t824 * t879 - 1 * t794 * t824 * t884 - 1 * t824 * t896);
    (0 + t839 + t840), (0 + t824), (0 + t864 + t867), (0 - 0.062 * t824 + 0.19 * (t839 + t840) - 0.4165 * (t864 + t867) + t820 * t836 * t879 + t794 * t836 * t884 + t836 * t896);
    0, 0, 0, 1]

/-- H_Body_to_HindLeftFoot.cpp:54-135, a 4 x 4 matrix -/
noncomputable def H_HindLeft (q : Fin 12 → ℝ) : Matrix (Fin 4) (Fin 4) ℝ :=
  let t928 : ℝ := Real.cos (q 11)
  let t938 : ℝ := Real.sin (q 10)
  let t912 : ℝ := Real.cos (q 10)
  let t942 : ℝ := Real.sin (q 9)
  let t939 : ℝ := Real.sin (q 11)
  let t954 : ℝ := Real.cos (q 9)
  let t990 : ℝ := -1 * t928
  let t992 : ℝ := 1 + t990
  let t971 : ℝ := -1 * t928 * t938
  let t975 : ℝ := -1 * t912 * t939
  let t935 : ℝ := t912 * t928
  let t940 : ℝ := -1 * t938 * t939
  let t993 : ℝ := -0.19 * t992
  let t995 : ℝ := -0.209 * t939
  let t997 : ℝ := 0 + t993 + t995
  let t999 : ℝ := -0.209 * t992
  let t1001 : ℝ := 0.19 * t939
  let t1002 : ℝ := 0 + t999 + t1001
  let t949 : ℝ := -1 * t928 * t942 * t938
  let t952 : ℝ := -1 * t912 * t942 * t939
  let t978 : ℝ := -1 * t912 * t928 * t942
  let t980 : ℝ := t942 * t938 * t939
  let t1013 : ℝ := 0.19 * t938
  let t1014 : ℝ := 0 + t1013
  let t957 : ℝ := t954 * t928 * t938
  let t958 : ℝ := t954 * t912 * t939
  let t982 : ℝ := t954 * t912 * t928
  let t985 : ℝ := -1 * t954 * t938 * t939
  !![(0 + t935 + t940), 0, (0 + t971 + t975), (0 - 0.19 * (1 - 1 * t912) - 1 * t1002 * t938 - 0.19 * (t935 + t940) - 0.4165 * (t971 + t975) + t912 * t997);
    (0 + t949 + t952), (0 + t954), (0 + t978 + t980), (0 - 1 * t1014 * t942 - 1 * t1002 * t912 * t942 - 0.19 * (t949 + t952) + 0.049 * (1 - 1 * t954) + 0.111 * t954 - 0.4165 * (t978 + t980) - 1 * t938 * t942 * t997);
    (0 + t957 + t958), (0 + t942), (0 + t982 + t985), (0 + 0.062 * t942 + t1014 * t954 + t1002 * t912 * t954 - 0.19 * (t957 + t958) - 0.4165 * (t982 + t985) + t938 * t954 * t997);
    0, 0, 0, 1]

/-- H_Body_to_HindRightFoot.cpp:54-136, a 4 x 4 matrix -/
noncomputable def H_HindRight (q : Fin 12 → ℝ) : Matrix (Fin 4) (Fin 4) ℝ :=
  let t1046 : ℝ := Real.cos (q 8)
  let t1056 : ℝ := Real.sin (q 7)
  let t1030 : ℝ := Real.cos (q 7)
  let t1060 : ℝ := Real.sin (q 6)
  let t1057 : ℝ := Real.sin (q 8)
  let t1072 : ℝ := Real.cos (q 6)
  let t1108 : ℝ := -1 * t1046
  let t1110 : ℝ := 1 + t1108
  let t1089 : ℝ := -1 * t1046 * t1056
  let t1093 : ℝ := -1 * t1030 * t1057
  let t1053 : ℝ := t1030 * t1046
  let t1058 : ℝ := -1 * t1056 * t1057
  let t1111 : ℝ := -0.19 * t1110
  let t1113 : ℝ := -0.209 * t1057
  let t1115 : ℝ := 0 + t1111 + t1113
  let t1117 : ℝ := -0.209 * t1110
  let t1119 : ℝ := 0.19 * t1057
  let t1120 : ℝ := 0 + t1117 + t1119
  let t1067 : ℝ := -1 * t1046 * t1060 * t1056
  let t1070 : ℝ := -1 * t1030 * t1060 * t1057
  let t1096 : ℝ := -1 * t1030 * t1046 * t1060
  let t1098 : ℝ := t1060 * t1056 * t1057
  let t1131 : ℝ := 0.19 * t1056
  let t1132 : ℝ := 0 + t1131
  let t1075 : ℝ := t1072 * t1046 * t1056
  let t1076 : ℝ := t1072 * t1030 * t1057
  let t1100 : ℝ := t1072 * t1030 * t1046
  let t1103 : ℝ := -1 * t1072 * t1056 * t1057
  !![(0 + t1053 + t1058), 0, (0 + t1089 + t1093), (0 - 0.19 * (1 - 1 * t1030) - 0.19 * (t1053 + t1058) - 0.4165 * (t1089 + t1093) + t1030 * t1115 - 1 * t1056 * t1120);
    (0 + t1067 + t1070), (0 + t1072), (0 + t1096 + t1098), (0 - 0.19 * (t1067 + t1070) - 0.049 * (1 - 1 * t1072) - 0.111 * t1072 - 0.4165 * (t1096 + t1098) - 1 * t1056 * t1060 * t1115 - 1 * t1030 * t1060 * t1120 - 1 * t1060 * t1132);
    (0 + t1075 + t1076), (0 + t1060), (0 + t1100 + t1103), (0 - 0.062 * t1060 - 0.19 * (t1075 + t1076) - 0.4165 * (t1100 + t1103) + t1056 * t1072 * t1115 + t1030 * t1072 * t1120 + t1072 * t1132);
    0, 0, 0, 1]

/-- Jb_Body_to_FrontLeftFoot.cpp:54-194, a 6 x 12 matrix -/
noncomputable def Jb_FrontLeft (q : Fin 12 → ℝ) : Matrix (Fin 6) (Fin 12) ℝ :=
  let t1893 : ℝ := Real.cos (q 5)
  let t1898 : ℝ := Real.sin (q 4)
  let t1879 : ℝ := Real.cos (q 4)
  let t1899 : ℝ := Real.sin (q 5)
  let t1907 : ℝ := -1 * t1893 * t1898
  let t1908 : ℝ := -1 * t1879 * t1899
  let t1910 : ℝ := 0 + t1907 + t1908
  let t1920 : ℝ := -1 * t1893
  let t1923 : ℝ := 1 + t1920
  let t1914 : ℝ := t1893 * t1898
  let t1915 : ℝ := t1879 * t1899
  let t1916 : ℝ := 0 + t1914 + t1915
  let t1925 : ℝ := -0.209 * t1923
  let t1927 : ℝ := -0.4165 * t1893
  let t1928 : ℝ := 0 + t1925 + t1927
  let t1931 : ℝ := 0.19 * t1923
  let t1932 : ℝ := 0.19 * t1893
  let t1933 : ℝ := 0.2075 * t1899
  let t1934 : ℝ := 0 + t1931 + t1932 + t1933
  let t1897 : ℝ := t1879 * t1893
  let t1901 : ℝ := -1 * t1898 * t1899
  let t1902 : ℝ := 0 + t1897 + t1901
  let t1938 : ℝ := -1 * t1879
  let t1939 : ℝ := 1 + t1938
  let t1940 : ℝ := 0.19 * t1939
  let t1941 : ℝ := -1 * t1928 * t1898
  let t1942 : ℝ := t1879 * t1934
  let t1943 : ℝ := 0 + t1940 + t1941 + t1942
  let t1929 : ℝ := t1879 * t1928
  let t1930 : ℝ := -0.19 * t1898
  let t1935 : ℝ := t1898 * t1934
  let t1936 : ℝ := 0 + t1929 + t1930 + t1935
  !![0, 0, 0, t1902, 0, 0, 0, 0, 0, 0, 0, 0;
    0, 0, 0, 0, (-1), (-1), 0, 0, 0, 0, 0, 0;
    0, 0, 0, t1910, 0, 0, 0, 0, 0, 0, 0, 0;
    0, 0, 0, (0 - 0.111 * t1910 - 0.049 * t1916), (0 - 0.19 * t1899 - 1 * t1893 * t1928 + t1899 * t1934), 0.2075, 0, 0, 0, 0, 0, 0;
    0, 0, 0, (0 + t1910 * (0 + t1916 * t1936 + t1902 * t1943) + t1902 * (0 - 1 * t1902 * t1936 - 1 * t1910 * t1943)), 0, 0, 0, 0, 0, 0, 0, 0;
    0, 0, 0, (0 + 0.062 * t1902), (0 - 0.19 * t1893 + t1899 * t1928 + t1893 * t1934), 0, 0, 0, 0, 0, 0, 0]

/-- Jb_Body_to_FrontRightFoot.cpp:54-194, a 6 x 12 matrix -/
noncomputable def Jb_FrontRight (q : Fin 12 → ℝ) : Matrix (Fin 6) (Fin 12) ℝ :=
  let t2013 : ℝ := Real.cos (q 2)
  let t2016 : ℝ := Real.sin (q 1)
  let t1997 : ℝ := Real.cos (q 1)
  let t2017 : ℝ := Real.sin (q 2)
  let t2025 : ℝ := -1 * t2013 * t2016
  let t2026 : ℝ := -1 * t1997 * t2017
  let t2028 : ℝ := 0 + t2025 + t2026
  let t2038 : ℝ := -1 * t2013
  let t2041 : ℝ := 1 + t2038
  let t2032 : ℝ := t2013 * t2016
  let t2033 : ℝ := t1997 * t2017
  let t2034 : ℝ := 0 + t2032 + t2033
  let t2043 : ℝ := -0.209 * t2041
  let t2045 : ℝ := -0.4165 * t2013
  let t2046 : ℝ := 0 + t2043 + t2045
  let t2049 : ℝ := 0.19 * t2041
  let t2050 : ℝ := 0.19 * t2013
  let t2051 : ℝ := 0.2075 * t2017
  let t2052 : ℝ := 0 + t2049 + t2050 + t2051
  let t2015 : ℝ := t1997 * t2013
  let t2019 : ℝ := -1 * t2016 * t2017
  let t2020 : ℝ := 0 + t2015 + t2019
  let t2056 : ℝ := -1 * t1997
  let t2057 : ℝ := 1 + t2056
  let t2058 : ℝ := 0.19 * t2057
  let t2059 : ℝ := -1 * t2046 * t2016
  let t2060 : ℝ := t1997 * t2052
  let t2061 : ℝ := 0 + t2058 + t2059 + t2060
  let t2047 : ℝ := t1997 * t2046
  let t2048 : ℝ := -0.19 * t2016
  let t2053 : ℝ := t2016 * t2052
  let t2054 : ℝ := 0 + t2047 + t2048 + t2053
  !![t2020, 0, 0, 0, 0, 0, 0, 0, 0, 0, 0, 0;
    0, (-1), (-1), 0, 0, 0, 0, 0, 0, 0, 0, 0;
    t2028, 0, 0, 0, 0, 0, 0, 0, 0, 0, 0, 0;
    (0 + 0.111 * t2028 + 0.049 * t2034), (0 - 0.19 * t2017 - 1 * t2013 * t2046 + t2017 * t2052), 0.2075, 0, 0, 0, 0, 0, 0, 0, 0, 0;
    (0 + t2028 * (0 + t2034 * t2054 + t2020 * t2061) + t2020 * (0 - 1 * t2020 * t2054 - 1 * t2028 * t2061)), 0, 0, 0, 0, 0, 0, 0, 0, 0, 0, 0;
    (0 - 0.062 * t2020), (0 - 0.19 * t2013 + t2017 * t2046 + t2013 * t2052), 0, 0, 0, 0, 0, 0, 0, 0, 0, 0]

/-- Jb_Body_to_HindLeftFoot.cpp:54-194, a 6 x 12 matrix -/
noncomputable def Jb_HindLeft (q : Fin 12 → ℝ) : Matrix (Fin 6) (Fin 12) ℝ :=
  let t2131 : ℝ := Real.cos (q 11)
  let t2134 : ℝ := Real.sin (q 10)
  let t2115 : ℝ := Real.cos (q 10)
  let t2135 : ℝ := Real.sin (q 11)
  let t2143 : ℝ := -1 * t2131 * t2134
  let t2144 : ℝ := -1 * t2115 * t2135
  let t2146 : ℝ := 0 + t2143 + t2144
  let t2156 : ℝ := -1 * t2131
  let t2159 : ℝ := 1 + t2156
  let t2150 : ℝ := t2131 * t2134
  let t2151 : ℝ := t2115 * t2135
  let t2152 : ℝ := 0 + t2150 + t2151
  let t2161 : ℝ := -0.209 * t2159
  let t2163 : ℝ := -0.4165 * t2131
  let t2164 : ℝ := 0 + t2161 + t2163
  let t2167 : ℝ := -0.19 * t2159
  let t2168 : ℝ := -0.19 * t2131
  let t2169 : ℝ := 0.2075 * t2135
  let t2170 : ℝ := 0 + t2167 + t2168 + t2169
  let t2133 : ℝ := t2115 * t2131
  let t2137 : ℝ := -1 * t2134 * t2135
  let t2138 : ℝ := 0 + t2133 + t2137
  let t2174 : ℝ := -1 * t2115
  let t2175 : ℝ := 1 + t2174
  let t2176 : ℝ := -0.19 * t2175
  let t2177 : ℝ := -1 * t2164 * t2134
  let t2178 : ℝ := t2115 * t2170
  let t2179 : ℝ := 0 + t2176 + t2177 + t2178
  let t2165 : ℝ := t2115 * t2164
  let t2166 : ℝ := 0.19 * t2134
  let t2171 : ℝ := t2134 * t2170
  let t2172 : ℝ := 0 + t2165 + t2166 + t2171
  !![0, 0, 0, 0, 0, 0, 0, 0, 0, t2138, 0, 0;
    0, 0, 0, 0, 0, 0, 0, 0, 0, 0, (-1), (-1);
    0, 0, 0, 0, 0, 0, 0, 0, 0, t2146, 0, 0;
    0, 0, 0, 0, 0, 0, 0, 0, 0, (0 - 0.111 * t2146 - 0.049 * t2152), (0 + 0.19 * t2135 - 1 * t2131 * t2164 + t2135 * t2170), 0.2075;
    0, 0, 0, 0, 0, 0, 0, 0, 0, (0 + t2146 * (0 + t2152 * t2172 + t2138 * t2179) + t2138 * (0 - 1 * t2138 * t2172 - 1 * t2146 * t2179)), 0, 0;
    0, 0, 0, 0, 0, 0, 0, 0, 0, (0 + 0.062 * t2138), (0 + 0.19 * t2131 + t2135 * t2164 + t2131 * t2170), 0]

/-- Jb_Body_to_HindRightFoot.cpp:54-194, a 6 x 12 matrix -/
noncomputable def Jb_HindRight (q : Fin 12 → ℝ) : Matrix (Fin 6) (Fin 12) ℝ :=
  let t2249 : ℝ := Real.cos (q 8)
  let t2252 : ℝ := Real.sin (q 7)
  let t2233 : ℝ := Real.cos (q 7)
  let t2253 : ℝ := Real.sin (q 8)
  let t2261 : ℝ := -1 * t2249 * t2252
  let t2262 : ℝ := -1 * t2233 * t2253
  let t2264 : ℝ := 0 + t2261 + t2262
  let t2274 : ℝ := -1 * t2249
  let t2277 : ℝ := 1 + t2274
  let t2268 : ℝ := t2249 * t2252
  let t2269 : ℝ := t2233 * t2253
  let t2270 : ℝ := 0 + t2268 + t2269
  let t2279 : ℝ := -0.209 * t2277
  let t2281 : ℝ := -0.4165 * t2249
  let t2282 : ℝ := 0 + t2279 + t2281
  let t2285 : ℝ := -0.19 * t2277
  let t2286 : ℝ := -0.19 * t2249
  let t2287 : ℝ := 0.2075 * t2253
  let t2288 : ℝ := 0 + t2285 + t2286 + t2287
  let t2251 : ℝ := t2233 * t2249
  let t2255 : ℝ := -1 * t2252 * t2253
  let t2256 : ℝ := 0 + t2251 + t2255
  let t2292 : ℝ := -1 * t2233
  let t2293 : ℝ := 1 + t2292
  let t2294 : ℝ := -0.19 * t2293
  let t2295 : ℝ := -1 * t2282 * t2252
  let t2296 : ℝ := t2233 * t2288
  let t2297 : ℝ := 0 + t2294 + t2295 + t2296
  let t2283 : ℝ := t2233 * t2282
  let t2284 : ℝ := 0.19 * t2252
  let t2289 : ℝ := t2252 * t2288
  let t2290 : ℝ := 0 + t2283 + t2284 + t2289
  !![0, 0, 0, 0, 0, 0, t2256, 0, 0, 0, 0, 0;
    0, 0, 0, 0, 0, 0, 0, (-1), (-1), 0, 0, 0;
    0, 0, 0, 0, 0, 0, t2264, 0, 0, 0, 0, 0;
    0, 0, 0, 0, 0, 0, (0 + 0.111 * t2264 + 0.049 * t2270), (0 + 0.19 * t2253 - 1 * t2249 * t2282 + t2253 * t2288), 0.2075, 0, 0, 0;
    0, 0, 0, 0, 0, 0, (0 + t2264 * (0 + t2270 * t2290 + t2256 * t2297) + t2256 * (0 - 1 * t2256 * t2290 - 1 * t2264 * t2297)), 0, 0, 0, 0, 0;
    0, 0, 0, 0, 0, 0, (0 - 0.062 * t2256), (0 + 0.19 * t2249 + t2253 * t2282 + t2249 * t2288), 0, 0, 0, 0]

/-- Jp_Body_to_FrontLeftFoot.cpp:54-191, a 3 x 12 matrix -/
noncomputable def Jp_FrontLeft (q : Fin 12 → ℝ) : Matrix (Fin 3) (Fin 12) ℝ :=
  let t780 : ℝ := Real.cos (q 3)
  let t786 : ℝ := Real.sin (q 4)
  let t795 : ℝ := Real.cos (q 5)
  let t798 : ℝ := -1 * t795
  let t802 : ℝ := 1 + t798
  let t805 : ℝ := Real.sin (q 5)
  let t809 : ℝ := Real.cos (q 4)
  let t752 : ℝ := Real.sin (q 3)
  let t788 : ℝ := -0.19 * t786
  let t791 : ℝ := 0 + t788
  let t804 : ℝ := 0.19 * t802
  let t806 : ℝ := -0.209 * t805
  let t807 : ℝ := 0 + t804 + t806
  let t810 : ℝ := -0.209 * t802
  let t811 : ℝ := -0.19 * t805
  let t812 : ℝ := 0 + t810 + t811
  let t837 : ℝ := -1 * t809 * t795 * t752
  let t838 : ℝ := t752 * t786 * t805
  let t839 : ℝ := t837 + t838
  let t814 : ℝ := -1 * t780 * t795 * t786
  let t815 : ℝ := -1 * t780 * t809 * t805
  let t816 : ℝ := t814 + t815
  let t847 : ℝ := -1 * t795 * t786
  let t848 : ℝ := -1 * t809 * t805
  let t850 : ℝ := t847 + t848
  let t851 : ℝ := 0.19 * t850
  let t852 : ℝ := -1 * t809 * t795
  let t853 : ℝ := t786 * t805
  let t855 : ℝ := t852 + t853
  let t856 : ℝ := -0.4165 * t855
  let t877 : ℝ := -0.19 * t795
  let t878 : ℝ := t877 + t806
  let t880 : ℝ := -0.209 * t795
  let t881 : ℝ := 0.19 * t805
  let t882 : ℝ := t880 + t881
  let t862 : ℝ := t795 * t752 * t786
  let t863 : ℝ := t809 * t752 * t805
  let t864 : ℝ := t862 + t863
  let t865 : ℝ := -0.4165 * t864
  let t866 : ℝ := 0.19 * t839
  let t871 : ℝ := -0.4165 * t816
  let t872 : ℝ := t780 * t809 * t795
  let t873 : ℝ := -1 * t780 * t786 * t805
  let t874 : ℝ := t872 + t873
  let t875 : ℝ := 0.19 * t874
  !![0, 0, 0, 0, (0.19 * t786 - 1 * t786 * t807 - 1 * t809 * t812 + t851 + t856), (t851 + t856 - 1 * t786 * t878 + t809 * t882), 0, 0, 0, 0, 0, 0;
    0, 0, 0, (-0.062 * t752 - 1 * t780 * t791 - 1 * t780 * t786 * t807 - 0.4165 * (t780 * t786 * t805 - 1 * t780 * t795 * t809) - 1 * t780 * t809 * t812 + 0.19 * t816), (0.19 * t752 * t809 - 1 * t752 * t807 * t809 + t752 * t786 * t812 + t865 + t866), (t865 + t866 - 1 * t752 * t809 * t878 - 1 * t752 * t786 * t882), 0, 0, 0, 0, 0, 0;
    0, 0, 0, (0.062 * t780 - 1 * t752 * t791 - 1 * t752 * t786 * t807 + 0.19 * (-1 * t752 * t786 * t795 - 1 * t752 * t805 * t809) - 1 * t752 * t809 * t812 - 0.4165 * t839), (-0.19 * t780 * t809 + t780 * t807 * t809 - 1 * t780 * t786 * t812 + t871 + t875), (t871 + t875 + t780 * t809 * t878 + t780 * t786 * t882), 0, 0, 0, 0, 0, 0]

/-- Jp_Body_to_FrontRightFoot.cpp:54-191, a 3 x 12 matrix -/
noncomputable def Jp_FrontRight (q : Fin 12 → ℝ) : Matrix (Fin 3) (Fin 12) ℝ :=
  let t898 : ℝ := Real.cos (q 0)
  let t904 : ℝ := Real.sin (q 1)
  let t913 : ℝ := Real.cos (q 2)
  let t916 : ℝ := -1 * t913
  let t920 : ℝ := 1 + t916
  let t923 : ℝ := Real.sin (q 2)
  let t927 : ℝ := Real.cos (q 1)
  let t870 : ℝ := Real.sin (q 0)
  let t906 : ℝ := -0.19 * t904
  let t909 : ℝ := 0 + t906
  let t922 : ℝ := 0.19 * t920
  let t924 : ℝ := -0.209 * t923
  let t925 : ℝ := 0 + t922 + t924
  let t928 : ℝ := -0.209 * t920
  let t929 : ℝ := -0.19 * t923
  let t930 : ℝ := 0 + t928 + t929
  let t955 : ℝ := -1 * t927 * t913 * t870
  let t956 : ℝ := t870 * t904 * t923
  let t957 : ℝ := t955 + t956
  let t932 : ℝ := -1 * t898 * t913 * t904
  let t933 : ℝ := -1 * t898 * t927 * t923
  let t934 : ℝ := t932 + t933
  let t965 : ℝ := -1 * t913 * t904
  let t966 : ℝ := -1 * t927 * t923
  let t968 : ℝ := t965 + t966
  let t969 : ℝ := 0.19 * t968
  let t970 : ℝ := -1 * t927 * t913
  let t971 : ℝ := t904 * t923
  let t973 : ℝ := t970 + t971
  let t974 : ℝ := -0.4165 * t973
  let t995 : ℝ := -0.19 * t913
  let t996 : ℝ := t995 + t924
  let t998 : ℝ := -0.209 * t913
  let t999 : ℝ := 0.19 * t923
  let t1000 : ℝ := t998 + t999
  let t980 : ℝ := t913 * t870 * t904
  let t981 : ℝ := t927 * t870 * t923
  let t982 : ℝ := t980 + t981
  let t983 : ℝ := -0.4165 * t982
  let t984 : ℝ := 0.19 * t957
  let t989 : ℝ := -0.4165 * t934
  let t990 : ℝ := t898 * t927 * t913
  let t991 : ℝ := -1 * t898 * t904 * t923
  let t992 : ℝ := t990 + t991
  let t993 : ℝ := 0.19 * t992
  !![0, (0.19 * t904 - 1 * t904 * t925 - 1 * t927 * t930 + t969 + t974), (t1000 * t927 + t969 + t974 - 1 * t904 * t996), 0, 0, 0, 0, 0, 0, 0, 0, 0;
    (0.062 * t870 - 1 * t898 * t909 - 1 * t898 * t904 * t925 - 0.4165 * (t898 * t904 * t923 - 1 * t898 * t913 * t927) - 1 * t898 * t927 * t930 + 0.19 * t934), (0.19 * t870 * t927 - 1 * t870 * t925 * t927 + t870 * t904 * t930 + t983 + t984), (-1 * t1000 * t870 * t904 + t983 + t984 - 1 * t870 * t927 * t996), 0, 0, 0, 0, 0, 0, 0, 0, 0;
    (-0.062 * t898 - 1 * t870 * t909 - 1 * t870 * t904 * t925 + 0.19 * (-1 * t870 * t904 * t913 - 1 * t870 * t923 * t927) - 1 * t870 * t927 * t930 - 0.4165 * t957), (-0.19 * t898 * t927 + t898 * t925 * t927 - 1 * t898 * t904 * t930 + t989 + t993), (t1000 * t898 * t904 + t989 + t993 + t898 * t927 * t996), 0, 0, 0, 0, 0, 0, 0, 0, 0]

/-- Jp_Body_to_HindLeftFoot.cpp:54-193, a 3 x 12 matrix -/
noncomputable def Jp_HindLeft (q : Fin 12 → ℝ) : Matrix (Fin 3) (Fin 12) ℝ :=
  let t1016 : ℝ := Real.cos (q 9)
  let t1022 : ℝ := Real.sin (q 10)
  let t1031 : ℝ := Real.cos (q 11)
  let t1034 : ℝ := -1 * t1031
  let t1038 : ℝ := 1 + t1034
  let t1041 : ℝ := Real.sin (q 11)
  let t1045 : ℝ := Real.cos (q 10)
  let t988 : ℝ := Real.sin (q 9)
  let t1024 : ℝ := 0.19 * t1022
  let t1027 : ℝ := 0 + t1024
  let t1040 : ℝ := -0.19 * t1038
  let t1042 : ℝ := -0.209 * t1041
  let t1043 : ℝ := 0 + t1040 + t1042
  let t1046 : ℝ := -0.209 * t1038
  let t1047 : ℝ := 0.19 * t1041
  let t1048 : ℝ := 0 + t1046 + t1047
  let t1073 : ℝ := -1 * t1045 * t1031 * t988
  let t1074 : ℝ := t988 * t1022 * t1041
  let t1075 : ℝ := t1073 + t1074
  let t1050 : ℝ := -1 * t1016 * t1031 * t1022
  let t1051 : ℝ := -1 * t1016 * t1045 * t1041
  let t1052 : ℝ := t1050 + t1051
  let t1083 : ℝ := -1 * t1031 * t1022
  let t1084 : ℝ := -1 * t1045 * t1041
  let t1086 : ℝ := t1083 + t1084
  let t1087 : ℝ := -0.19 * t1086
  let t1088 : ℝ := -1 * t1045 * t1031
  let t1089 : ℝ := t1022 * t1041
  let t1091 : ℝ := t1088 + t1089
  let t1092 : ℝ := -0.4165 * t1091
  let t1113 : ℝ := 0.19 * t1031
  let t1114 : ℝ := t1113 + t1042
  let t1116 : ℝ := -0.209 * t1031
  let t1117 : ℝ := -0.19 * t1041
  let t1118 : ℝ := t1116 + t1117
  let t1098 : ℝ := t1031 * t988 * t1022
  let t1099 : ℝ := t1045 * t988 * t1041
  let t1100 : ℝ := t1098 + t1099
  let t1101 : ℝ := -0.4165 * t1100
  let t1102 : ℝ := -0.19 * t1075
  let t1107 : ℝ := -0.4165 * t1052
  let t1108 : ℝ := t1016 * t1045 * t1031
  let t1109 : ℝ := -1 * t1016 * t1022 * t1041
  let t1110 : ℝ := t1108 + t1109
  let t1111 : ℝ := -0.19 * t1110
  !![0, 0, 0, 0, 0, 0, 0, 0, 0, 0, (-0.19 * t1022 - 1 * t1022 * t1043 - 1 * t1045 * t1048 + t1087 + t1092), (t1087 + t1092 - 1 * t1022 * t1114 + t1045 * t1118);
    0, 0, 0, 0, 0, 0, 0, 0, 0, (-1 * t1016 * t1027 - 1 * t1016 * t1022 * t1043 - 0.4165 * (t1016 * t1022 * t1041 - 1 * t1016 * t1031 * t1045) - 1 * t1016 * t1045 * t1048 - 0.19 * t1052 - 0.062 * t988), (t1101 + t1102 - 0.19 * t1045 * t988 - 1 * t1043 * t1045 * t988 + t1022 * t1048 * t988), (t1101 + t1102 - 1 * t1045 * t1114 * t988 - 1 * t1022 * t1118 * t988);
    0, 0, 0, 0, 0, 0, 0, 0, 0, (0.062 * t1016 - 0.4165 * t1075 - 1 * t1027 * t988 - 1 * t1022 * t1043 * t988 - 1 * t1045 * t1048 * t988 - 0.19 * (-1 * t1022 * t1031 * t988 - 1 * t1041 * t1045 * t988)), (0.19 * t1016 * t1045 + t1016 * t1043 * t1045 - 1 * t1016 * t1022 * t1048 + t1107 + t1111), (t1107 + t1111 + t1016 * t1045 * t1114 + t1016 * t1022 * t1118)]

/-- Jp_Body_to_HindRightFoot.cpp:54-193, a 3 x 12 matrix -/
noncomputable def Jp_HindRight (q : Fin 12 → ℝ) : Matrix (Fin 3) (Fin 12) ℝ :=
  let t1134 : ℝ := Real.cos (q 6)
  let t1140 : ℝ := Real.sin (q 7)
  let t1149 : ℝ := Real.cos (q 8)
  let t1152 : ℝ := -1 * t1149
  let t1156 : ℝ := 1 + t1152
  let t1159 : ℝ := Real.sin (q 8)
  let t1163 : ℝ := Real.cos (q 7)
  let t1106 : ℝ := Real.sin (q 6)
  let t1142 : ℝ := 0.19 * t1140
  let t1145 : ℝ := 0 + t1142
  let t1158 : ℝ := -0.19 * t1156
  let t1160 : ℝ := -0.209 * t1159
  let t1161 : ℝ := 0 + t1158 + t1160
  let t1164 : ℝ := -0.209 * t1156
  let t1165 : ℝ := 0.19 * t1159
  let t1166 : ℝ := 0 + t1164 + t1165
  let t1191 : ℝ := -1 * t1163 * t1149 * t1106
  let t1192 : ℝ := t1106 * t1140 * t1159
  let t1193 : ℝ := t1191 + t1192
  let t1168 : ℝ := -1 * t1134 * t1149 * t1140
  let t1169 : ℝ := -1 * t1134 * t1163 * t1159
  let t1170 : ℝ := t1168 + t1169
  let t1201 : ℝ := -1 * t1149 * t1140
  let t1202 : ℝ := -1 * t1163 * t1159
  let t1204 : ℝ := t1201 + t1202
  let t1205 : ℝ := -0.19 * t1204
  let t1206 : ℝ := -1 * t1163 * t1149
  let t1207 : ℝ := t1140 * t1159
  let t1209 : ℝ := t1206 + t1207
  let t1210 : ℝ := -0.4165 * t1209
  let t1231 : ℝ := 0.19 * t1149
  let t1232 : ℝ := t1231 + t1160
  let t1234 : ℝ := -0.209 * t1149
  let t1235 : ℝ := -0.19 * t1159
  let t1236 : ℝ := t1234 + t1235
  let t1216 : ℝ := t1149 * t1106 * t1140
  let t1217 : ℝ := t1163 * t1106 * t1159
  let t1218 : ℝ := t1216 + t1217
  let t1219 : ℝ := -0.4165 * t1218
  let t1220 : ℝ := -0.19 * t1193
  let t1225 : ℝ := -0.4165 * t1170
  let t1226 : ℝ := t1134 * t1163 * t1149
  let t1227 : ℝ := -1 * t1134 * t1140 * t1159
  let t1228 : ℝ := t1226 + t1227
  let t1229 : ℝ := -0.19 * t1228
  !![0, 0, 0, 0, 0, 0, 0, (-0.19 * t1140 - 1 * t1140 * t1161 - 1 * t1163 * t1166 + t1205 + t1210), (t1205 + t1210 - 1 * t1140 * t1232 + t1163 * t1236), 0, 0, 0;
    0, 0, 0, 0, 0, 0, (0.062 * t1106 - 1 * t1134 * t1145 - 1 * t1134 * t1140 * t1161 - 0.4165 * (t1134 * t1140 * t1159 - 1 * t1134 * t1149 * t1163) - 1 * t1134 * t1163 * t1166 - 0.19 * t1170), (-0.19 * t1106 * t1163 - 1 * t1106 * t1161 * t1163 + t1106 * t1140 * t1166 + t1219 + t1220), (t1219 + t1220 - 1 * t1106 * t1163 * t1232 - 1 * t1106 * t1140 * t1236), 0, 0, 0;
    0, 0, 0, 0, 0, 0, (-0.062 * t1134 - 1 * t1106 * t1145 - 1 * t1106 * t1140 * t1161 - 0.19 * (-1 * t1106 * t1140 * t1149 - 1 * t1106 * t1159 * t1163) - 1 * t1106 * t1163 * t1166 - 0.4165 * t1193), (0.19 * t1134 * t1163 + t1134 * t1161 * t1163 - 1 * t1134 * t1140 * t1166 + t1225 + t1229), (t1225 + t1229 + t1134 * t1163 * t1232 + t1134 * t1140 * t1236), 0, 0, 0]

/-- Js_Body_to_FrontLeftFoot.cpp:54-163, a 6 x 12 matrix -/
noncomputable def Js_FrontLeft (q : Fin 12 → ℝ) : Matrix (Fin 6) (Fin 12) ℝ :=
  let t1952 : ℝ := Real.cos (q 3)
  let t1962 : ℝ := Real.sin (q 3)
  let t1955 : ℝ := -1 * t1952
  let t1959 : ℝ := 0 + t1955
  let t1966 : ℝ := -1 * t1962
  let t1970 : ℝ := 0 + t1966
  let t1971 : ℝ := 0.049 * t1962
  let t1974 : ℝ := 1 + t1955
  let t1976 : ℝ := 0.049 * t1974
  let t1994 : ℝ := Real.sin (q 4)
  let t1995 : ℝ := -0.19 * t1994
  let t1996 : ℝ := 0 + t1995
  let t1992 : ℝ := Real.cos (q 4)
  let t2007 : ℝ := -1 * t1992
  let t2008 : ℝ := 1 + t2007
  !![0, 0, 0, 1, 0, 0, 0, 0, 0, 0, 0, 0;
    0, 0, 0, 0, t1959, t1959, 0, 0, 0, 0, 0, 0;
    0, 0, 0, 0, t1970, t1970, 0, 0, 0, 0, 0, 0;
    0, 0, 0, 0, (0 - 1 * t1952 * (0 + t1971) - 1 * t1962 * (0 + t1976)), (-0.209 * t1992 + 0.19 * t1994 - 1 * t1952 * (0 + t1971 - 1 * t1952 * t1996) - 1 * t1962 * (0 + t1976 - 1 * t1962 * t1996)), 0, 0, 0, 0, 0, 0;
    0, 0, 0, 0, (0 + 0.19 * t1962), (0 + 0.19 * t1962 * t1992 + 0.209 * t1962 * t1994 - 1 * t1962 * (0 - 0.19 * t2008)), 0, 0, 0, 0, 0, 0;
    0, 0, 0, (-0.049), (0 - 0.19 * t1952), (-0.19 * t1952 * t1992 - 0.209 * t1952 * t1994 - 1 * t1952 * (0 + 0.19 * t2008)), 0, 0, 0, 0, 0, 0]

/-- Js_Body_to_FrontRightFoot.cpp:54-163, a 6 x 12 matrix -/
noncomputable def Js_FrontRight (q : Fin 12 → ℝ) : Matrix (Fin 6) (Fin 12) ℝ :=
  let t2070 : ℝ := Real.cos (q 0)
  let t2080 : ℝ := Real.sin (q 0)
  let t2073 : ℝ := -1 * t2070
  let t2077 : ℝ := 0 + t2073
  let t2084 : ℝ := -1 * t2080
  let t2088 : ℝ := 0 + t2084
  let t2089 : ℝ := -0.049 * t2080
  let t2092 : ℝ := 1 + t2073
  let t2094 : ℝ := -0.049 * t2092
  let t2112 : ℝ := Real.sin (q 1)
  let t2113 : ℝ := -0.19 * t2112
  let t2114 : ℝ := 0 + t2113
  let t2110 : ℝ := Real.cos (q 1)
  let t2125 : ℝ := -1 * t2110
  let t2126 : ℝ := 1 + t2125
  !![1, 0, 0, 0, 0, 0, 0, 0, 0, 0, 0, 0;
    0, t2077, t2077, 0, 0, 0, 0, 0, 0, 0, 0, 0;
    0, t2088, t2088, 0, 0, 0, 0, 0, 0, 0, 0, 0;
    0, (0 - 1 * t2070 * (0 + t2089) - 1 * t2080 * (0 + t2094)), (-0.209 * t2110 + 0.19 * t2112 - 1 * t2070 * (0 + t2089 - 1 * t2070 * t2114) - 1 * t2080 * (0 + t2094 - 1 * t2080 * t2114)), 0, 0, 0, 0, 0, 0, 0, 0, 0;
    0, (0 + 0.19 * t2080), (0 + 0.19 * t2080 * t2110 + 0.209 * t2080 * t2112 - 1 * t2080 * (0 - 0.19 * t2126)), 0, 0, 0, 0, 0, 0, 0, 0, 0;
    0.049, (0 - 0.19 * t2070), (-0.19 * t2070 * t2110 - 0.209 * t2070 * t2112 - 1 * t2070 * (0 + 0.19 * t2126)), 0, 0, 0, 0, 0, 0, 0, 0, 0]

/-- Js_Body_to_HindLeftFoot.cpp:54-163, a 6 x 12 matrix -/
noncomputable def Js_HindLeft (q : Fin 12 → ℝ) : Matrix (Fin 6) (Fin 12) ℝ :=
  let t2188 : ℝ := Real.cos (q 9)
  let t2198 : ℝ := Real.sin (q 9)
  let t2191 : ℝ := -1 * t2188
  let t2195 : ℝ := 0 + t2191
  let t2202 : ℝ := -1 * t2198
  let t2206 : ℝ := 0 + t2202
  let t2207 : ℝ := 0.049 * t2198
  let t2210 : ℝ := 1 + t2191
  let t2212 : ℝ := 0.049 * t2210
  let t2230 : ℝ := Real.sin (q 10)
  let t2231 : ℝ := 0.19 * t2230
  let t2232 : ℝ := 0 + t2231
  let t2228 : ℝ := Real.cos (q 10)
  let t2243 : ℝ := -1 * t2228
  let t2244 : ℝ := 1 + t2243
  !![0, 0, 0, 0, 0, 0, 0, 0, 0, 1, 0, 0;
    0, 0, 0, 0, 0, 0, 0, 0, 0, 0, t2195, t2195;
    0, 0, 0, 0, 0, 0, 0, 0, 0, 0, t2206, t2206;
    0, 0, 0, 0, 0, 0, 0, 0, 0, 0, (0 - 1 * t2188 * (0 + t2207) - 1 * t2198 * (0 + t2212)), (-0.209 * t2228 - 0.19 * t2230 - 1 * t2188 * (0 + t2207 - 1 * t2188 * t2232) - 1 * t2198 * (0 + t2212 - 1 * t2198 * t2232));
    0, 0, 0, 0, 0, 0, 0, 0, 0, 0, (0 - 0.19 * t2198), (0 - 0.19 * t2198 * t2228 + 0.209 * t2198 * t2230 - 1 * t2198 * (0 + 0.19 * t2244));
    0, 0, 0, 0, 0, 0, 0, 0, 0, (-0.049), (0 + 0.19 * t2188), (0.19 * t2188 * t2228 - 0.209 * t2188 * t2230 - 1 * t2188 * (0 - 0.19 * t2244))]

/-- Js_Body_to_HindRightFoot.cpp:54-163, a 6 x 12 matrix -/
noncomputable def Js_HindRight (q : Fin 12 → ℝ) : Matrix (Fin 6) (Fin 12) ℝ :=
  let t2306 : ℝ := Real.cos (q 6)
  let t2316 : ℝ := Real.sin (q 6)
  let t2309 : ℝ := -1 * t2306
  let t2313 : ℝ := 0 + t2309
  let t2320 : ℝ := -1 * t2316
  let t2324 : ℝ := 0 + t2320
  let t2325 : ℝ := -0.049 * t2316
  let t2328 : ℝ := 1 + t2309
  let t2330 : ℝ := -0.049 * t2328
  let t2348 : ℝ := Real.sin (q 7)
  let t2349 : ℝ := 0.19 * t2348
  let t2350 : ℝ := 0 + t2349
  let t2346 : ℝ := Real.cos (q 7)
  let t2361 : ℝ := -1 * t2346
  let t2362 : ℝ := 1 + t2361
  !![0, 0, 0, 0, 0, 0, 1, 0, 0, 0, 0, 0;
    0, 0, 0, 0, 0, 0, 0, t2313, t2313, 0, 0, 0;
    0, 0, 0, 0, 0, 0, 0, t2324, t2324, 0, 0, 0;
    0, 0, 0, 0, 0, 0, 0, (0 - 1 * t2306 * (0 + t2325) - 1 * t2316 * (0 + t2330)), (-0.209 * t2346 - 0.19 * t2348 - 1 * t2306 * (0 + t2325 - 1 * t2306 * t2350) - 1 * t2316 * (0 + t2330 - 1 * t2316 * t2350)), 0, 0, 0;
    0, 0, 0, 0, 0, 0, 0, (0 - 0.19 * t2316), (0 - 0.19 * t2316 * t2346 + 0.209 * t2316 * t2348 - 1 * t2316 * (0 + 0.19 * t2362)), 0, 0, 0;
    0, 0, 0, 0, 0, 0, 0.049, (0 + 0.19 * t2306), (0.19 * t2306 * t2346 - 0.209 * t2306 * t2348 - 1 * t2306 * (0 - 0.19 * t2362)), 0, 0, 0]

/-- Jvb_Body_to_FrontLeftFoot.cpp:54-158, a 3 x 12 matrix -/
noncomputable def Jvb_FrontLeft (q : Fin 12 → ℝ) : Matrix (Fin 3) (Fin 12) ℝ :=
  let t1935 : ℝ := Real.cos (q 5)
  let t1937 : ℝ := Real.sin (q 4)
  let t1942 : ℝ := Real.cos (q 4)
  let t1944 : ℝ := Real.sin (q 5)
  let t1940 : ℝ := -1 * t1935 * t1937
  let t1945 : ℝ := -1 * t1942 * t1944
  let t1948 : ℝ := 0 + t1940 + t1945
  let t1956 : ℝ := -1 * t1935
  let t1957 : ℝ := 1 + t1956
  let t1951 : ℝ := t1935 * t1937
  let t1952 : ℝ := t1942 * t1944
  let t1953 : ℝ := 0 + t1951 + t1952
  let t1959 : ℝ := -0.209 * t1957
  let t1962 : ℝ := -0.4165 * t1935
  let t1964 : ℝ := 0 + t1959 + t1962
  let t1970 : ℝ := 0.19 * t1957
  let t1971 : ℝ := 0.19 * t1935
  let t1972 : ℝ := 0.2075 * t1944
  let t1973 : ℝ := 0 + t1970 + t1971 + t1972
  let t1983 : ℝ := t1942 * t1935
  let t1984 : ℝ := -1 * t1937 * t1944
  let t1985 : ℝ := 0 + t1983 + t1984
  let t1977 : ℝ := -1 * t1942
  let t1978 : ℝ := 1 + t1977
  let t1979 : ℝ := 0.19 * t1978
  let t1980 : ℝ := -1 * t1964 * t1937
  let t1981 : ℝ := t1942 * t1973
  let t1982 : ℝ := 0 + t1979 + t1980 + t1981
  let t1966 : ℝ := t1942 * t1964
  let t1969 : ℝ := -0.19 * t1937
  let t1974 : ℝ := t1937 * t1973
  let t1975 : ℝ := 0 + t1966 + t1969 + t1974
  !![0, 0, 0, (0 - 0.111 * t1948 - 0.049 * t1953), (0 - 0.19 * t1944 - 1 * t1935 * t1964 + t1944 * t1973), 0.2075, 0, 0, 0, 0, 0, 0;
    0, 0, 0, (0 + t1985 * (0 - 1 * t1948 * t1982 - 1 * t1975 * t1985) + t1948 * (0 + t1953 * t1975 + t1982 * t1985)), 0, 0, 0, 0, 0, 0, 0, 0;
    0, 0, 0, (0 + 0.062 * t1985), (0 - 0.19 * t1935 + t1944 * t1964 + t1935 * t1973), 0, 0, 0, 0, 0, 0, 0]

/-- Jvb_Body_to_FrontRightFoot.cpp:54-158, a 3 x 12 matrix -/
noncomputable def Jvb_FrontRight (q : Fin 12 → ℝ) : Matrix (Fin 3) (Fin 12) ℝ :=
  let t2053 : ℝ := Real.cos (q 2)
  let t2055 : ℝ := Real.sin (q 1)
  let t2060 : ℝ := Real.cos (q 1)
  let t2062 : ℝ := Real.sin (q 2)
  let t2058 : ℝ := -1 * t2053 * t2055
  let t2063 : ℝ := -1 * t2060 * t2062
  let t2066 : ℝ := 0 + t2058 + t2063
  let t2074 : ℝ := -1 * t2053
  let t2075 : ℝ := 1 + t2074
  let t2069 : ℝ := t2053 * t2055
  let t2070 : ℝ := t2060 * t2062
  let t2071 : ℝ := 0 + t2069 + t2070
  let t2077 : ℝ := -0.209 * t2075
  let t2080 : ℝ := -0.4165 * t2053
  let t2082 : ℝ := 0 + t2077 + t2080
  let t2088 : ℝ := 0.19 * t2075
  let t2089 : ℝ := 0.19 * t2053
  let t2090 : ℝ := 0.2075 * t2062
  let t2091 : ℝ := 0 + t2088 + t2089 + t2090
  let t2101 : ℝ := t2060 * t2053
  let t2102 : ℝ := -1 * t2055 * t2062
  let t2103 : ℝ := 0 + t2101 + t2102
  let t2095 : ℝ := -1 * t2060
  let t2096 : ℝ := 1 + t2095
  let t2097 : ℝ := 0.19 * t2096
  let t2098 : ℝ := -1 * t2082 * t2055
  let t2099 : ℝ := t2060 * t2091
  let t2100 : ℝ := 0 + t2097 + t2098 + t2099
  let t2084 : ℝ := t2060 * t2082
  let t2087 : ℝ := -0.19 * t2055
  let t2092 : ℝ := t2055 * t2091
  let t2093 : ℝ := 0 + t2084 + t2087 + t2092
  !![(0 + 0.111 * t2066 + 0.049 * t2071), (0 - 0.19 * t2062 - 1 * t2053 * t2082 + t2062 * t2091), 0.2075, 0, 0, 0, 0, 0, 0, 0, 0, 0;
    (0 + t2103 * (0 - 1 * t2066 * t2100 - 1 * t2093 * t2103) + t2066 * (0 + t2071 * t2093 + t2100 * t2103)), 0, 0, 0, 0, 0, 0, 0, 0, 0, 0, 0;
    (0 - 0.062 * t2103), (0 - 0.19 * t2053 + t2062 * t2082 + t2053 * t2091), 0, 0, 0, 0, 0, 0, 0, 0, 0, 0]

/-- Jvb_Body_to_HindLeftFoot.cpp:54-158, a 3 x 12 matrix -/
noncomputable def Jvb_HindLeft (q : Fin 12 → ℝ) : Matrix (Fin 3) (Fin 12) ℝ :=
  let t2171 : ℝ := Real.cos (q 11)
  let t2173 : ℝ := Real.sin (q 10)
  let t2178 : ℝ := Real.cos (q 10)
  let t2180 : ℝ := Real.sin (q 11)
  let t2176 : ℝ := -1 * t2171 * t2173
  let t2181 : ℝ := -1 * t2178 * t2180
  let t2184 : ℝ := 0 + t2176 + t2181
  let t2192 : ℝ := -1 * t2171
  let t2193 : ℝ := 1 + t2192
  let t2187 : ℝ := t2171 * t2173
  let t2188 : ℝ := t2178 * t2180
  let t2189 : ℝ := 0 + t2187 + t2188
  let t2195 : ℝ := -0.209 * t2193
  let t2198 : ℝ := -0.4165 * t2171
  let t2200 : ℝ := 0 + t2195 + t2198
  let t2206 : ℝ := -0.19 * t2193
  let t2207 : ℝ := -0.19 * t2171
  let t2208 : ℝ := 0.2075 * t2180
  let t2209 : ℝ := 0 + t2206 + t2207 + t2208
  let t2219 : ℝ := t2178 * t2171
  let t2220 : ℝ := -1 * t2173 * t2180
  let t2221 : ℝ := 0 + t2219 + t2220
  let t2213 : ℝ := -1 * t2178
  let t2214 : ℝ := 1 + t2213
  let t2215 : ℝ := -0.19 * t2214
  let t2216 : ℝ := -1 * t2200 * t2173
  let t2217 : ℝ := t2178 * t2209
  let t2218 : ℝ := 0 + t2215 + t2216 + t2217
  let t2202 : ℝ := t2178 * t2200
  let t2205 : ℝ := 0.19 * t2173
  let t2210 : ℝ := t2173 * t2209
  let t2211 : ℝ := 0 + t2202 + t2205 + t2210
  !![0, 0, 0, 0, 0, 0, 0, 0, 0, (0 - 0.111 * t2184 - 0.049 * t2189), (0 + 0.19 * t2180 - 1 * t2171 * t2200 + t2180 * t2209), 0.2075;
    0, 0, 0, 0, 0, 0, 0, 0, 0, (0 + t2221 * (0 - 1 * t2184 * t2218 - 1 * t2211 * t2221) + t2184 * (0 + t2189 * t2211 + t2218 * t2221)), 0, 0;
    0, 0, 0, 0, 0, 0, 0, 0, 0, (0 + 0.062 * t2221), (0 + 0.19 * t2171 + t2180 * t2200 + t2171 * t2209), 0]

/-- Jvb_Body_to_HindRightFoot.cpp:54-158, a 3 x 12 matrix -/
noncomputable def Jvb_HindRight (q : Fin 12 → ℝ) : Matrix (Fin 3) (Fin 12) ℝ :=
  let t2289 : ℝ := Real.cos (q 8)
  let t2291 : ℝ := Real.sin (q 7)
  let t2296 : ℝ := Real.cos (q 7)
  let t2298 : ℝ := Real.sin (q 8)
  let t2294 : ℝ := -1 * t2289 * t2291
  let t2299 : ℝ := -1 * t2296 * t2298
  let t2302 : ℝ := 0 + t2294 + t2299
  let t2310 : ℝ := -1 * t2289
  let t2311 : ℝ := 1 + t2310
  let t2305 : ℝ := t2289 * t2291
  let t2306 : ℝ := t2296 * t2298
  let t2307 : ℝ := 0 + t2305 + t2306
  let t2313 : ℝ := -0.209 * t2311
  let t2316 : ℝ := -0.4165 * t2289
  let t2318 : ℝ := 0 + t2313 + t2316
  let t2324 : ℝ := -0.19 * t2311
  let t2325 : ℝ := -0.19 * t2289
  let t2326 : ℝ := 0.2075 * t2298
  let t2327 : ℝ := 0 + t2324 + t2325 + t2326
  let t2337 : ℝ := t2296 * t2289
  let t2338 : ℝ := -1 * t2291 * t2298
  let t2339 : ℝ := 0 + t2337 + t2338
  let t2331 : ℝ := -1 * t2296
  let t2332 : ℝ := 1 + t2331
  let t2333 : ℝ := -0.19 * t2332
  let t2334 : ℝ := -1 * t2318 * t2291
  let t2335 : ℝ := t2296 * t2327
  let t2336 : ℝ := 0 + t2333 + t2334 + t2335
  let t2320 : ℝ := t2296 * t2318
  let t2323 : ℝ := 0.19 * t2291
  let t2328 : ℝ := t2291 * t2327
  let t2329 : ℝ := 0 + t2320 + t2323 + t2328
  !![0, 0, 0, 0, 0, 0, (0 + 0.111 * t2302 + 0.049 * t2307), (0 + 0.19 * t2298 - 1 * t2289 * t2318 + t2298 * t2327), 0.2075, 0, 0, 0;
    0, 0, 0, 0, 0, 0, (0 + t2339 * (0 - 1 * t2302 * t2336 - 1 * t2329 * t2339) + t2302 * (0 + t2307 * t2329 + t2336 * t2339)), 0, 0, 0, 0, 0;
    0, 0, 0, 0, 0, 0, (0 - 0.062 * t2339), (0 + 0.19 * t2289 + t2298 * t2318 + t2289 * t2327), 0, 0, 0, 0]

/-- Jvs_Body_to_FrontLeftFoot.cpp:54-121, a 3 x 12 matrix -/
noncomputable def Jvs_FrontLeft (q : Fin 12 → ℝ) : Matrix (Fin 3) (Fin 12) ℝ :=
  let t1988 : ℝ := Real.cos (q 3)
  let t1990 : ℝ := Real.sin (q 3)
  let t1991 : ℝ := 0.049 * t1990
  let t2000 : ℝ := -1 * t1988
  let t2001 : ℝ := 1 + t2000
  let t2002 : ℝ := 0.049 * t2001
  let t2016 : ℝ := Real.sin (q 4)
  let t2017 : ℝ := -0.19 * t2016
  let t2018 : ℝ := 0 + t2017
  let t2014 : ℝ := Real.cos (q 4)
  let t2029 : ℝ := -1 * t2014
  let t2030 : ℝ := 1 + t2029
  !![0, 0, 0, 0, (0 - 1 * t1988 * (0 + t1991) - 1 * t1990 * (0 + t2002)), (-0.209 * t2014 + 0.19 * t2016 - 1 * t1988 * (0 + t1991 - 1 * t1988 * t2018) - 1 * t1990 * (0 + t2002 - 1 * t1990 * t2018)), 0, 0, 0, 0, 0, 0;
    0, 0, 0, 0, (0 + 0.19 * t1990), (0 + 0.19 * t1990 * t2014 + 0.209 * t1990 * t2016 - 1 * t1990 * (0 - 0.19 * t2030)), 0, 0, 0, 0, 0, 0;
    0, 0, 0, (-0.049), (0 - 0.19 * t1988), (-0.19 * t1988 * t2014 - 0.209 * t1988 * t2016 - 1 * t1988 * (0 + 0.19 * t2030)), 0, 0, 0, 0, 0, 0]

/-- Jvs_Body_to_FrontRightFoot.cpp:54-121, a 3 x 12 matrix -/
noncomputable def Jvs_FrontRight (q : Fin 12 → ℝ) : Matrix (Fin 3) (Fin 12) ℝ :=
  let t2106 : ℝ := Real.cos (q 0)
  let t2108 : ℝ := Real.sin (q 0)
  let t2109 : ℝ := -0.049 * t2108
  let t2118 : ℝ := -1 * t2106
  let t2119 : ℝ := 1 + t2118
  let t2120 : ℝ := -0.049 * t2119
  let t2134 : ℝ := Real.sin (q 1)
  let t2135 : ℝ := -0.19 * t2134
  let t2136 : ℝ := 0 + t2135
  let t2132 : ℝ := Real.cos (q 1)
  let t2147 : ℝ := -1 * t2132
  let t2148 : ℝ := 1 + t2147
  !![0, (0 - 1 * t2106 * (0 + t2109) - 1 * t2108 * (0 + t2120)), (-0.209 * t2132 + 0.19 * t2134 - 1 * t2106 * (0 + t2109 - 1 * t2106 * t2136) - 1 * t2108 * (0 + t2120 - 1 * t2108 * t2136)), 0, 0, 0, 0, 0, 0, 0, 0, 0;
    0, (0 + 0.19 * t2108), (0 + 0.19 * t2108 * t2132 + 0.209 * t2108 * t2134 - 1 * t2108 * (0 - 0.19 * t2148)), 0, 0, 0, 0, 0, 0, 0, 0, 0;
    0.049, (0 - 0.19 * t2106), (-0.19 * t2106 * t2132 - 0.209 * t2106 * t2134 - 1 * t2106 * (0 + 0.19 * t2148)), 0, 0, 0, 0, 0, 0, 0, 0, 0]

/-- Jvs_Body_to_HindLeftFoot.cpp:54-121, a 3 x 12 matrix -/
noncomputable def Jvs_HindLeft (q : Fin 12 → ℝ) : Matrix (Fin 3) (Fin 12) ℝ :=
  let t2224 : ℝ := Real.cos (q 9)
  let t2226 : ℝ := Real.sin (q 9)
  let t2227 : ℝ := 0.049 * t2226
  let t2236 : ℝ := -1 * t2224
  let t2237 : ℝ := 1 + t2236
  let t2238 : ℝ := 0.049 * t2237
  let t2252 : ℝ := Real.sin (q 10)
  let t2253 : ℝ := 0.19 * t2252
  let t2254 : ℝ := 0 + t2253
  let t2250 : ℝ := Real.cos (q 10)
  let t2265 : ℝ := -1 * t2250
  let t2266 : ℝ := 1 + t2265
  !![0, 0, 0, 0, 0, 0, 0, 0, 0, 0, (0 - 1 * t2224 * (0 + t2227) - 1 * t2226 * (0 + t2238)), (-0.209 * t2250 - 0.19 * t2252 - 1 * t2224 * (0 + t2227 - 1 * t2224 * t2254) - 1 * t2226 * (0 + t2238 - 1 * t2226 * t2254));
    0, 0, 0, 0, 0, 0, 0, 0, 0, 0, (0 - 0.19 * t2226), (0 - 0.19 * t2226 * t2250 + 0.209 * t2226 * t2252 - 1 * t2226 * (0 + 0.19 * t2266));
    0, 0, 0, 0, 0, 0, 0, 0, 0, (-0.049), (0 + 0.19 * t2224), (0.19 * t2224 * t2250 - 0.209 * t2224 * t2252 - 1 * t2224 * (0 - 0.19 * t2266))]

/-- Jvs_Body_to_HindRightFoot.cpp:54-121, a 3 x 12 matrix -/
noncomputable def Jvs_HindRight (q : Fin 12 → ℝ) : Matrix (Fin 3) (Fin 12) ℝ :=
  let t2342 : ℝ := Real.cos (q 6)
  let t2344 : ℝ := Real.sin (q 6)
  let t2345 : ℝ := -0.049 * t2344
  let t2354 : ℝ := -1 * t2342
  let t2355 : ℝ := 1 + t2354
  let t2356 : ℝ := -0.049 * t2355
  let t2370 : ℝ := Real.sin (q 7)
  let t2371 : ℝ := 0.19 * t2370
  let t2372 : ℝ := 0 + t2371
  let t2368 : ℝ := Real.cos (q 7)
  let t2383 : ℝ := -1 * t2368
  let t2384 : ℝ := 1 + t2383
  !![0, 0, 0, 0, 0, 0, 0, (0 - 1 * t2342 * (0 + t2345) - 1 * t2344 * (0 + t2356)), (-0.209 * t2368 - 0.19 * t2370 - 1 * t2342 * (0 + t2345 - 1 * t2342 * t2372) - 1 * t2344 * (0 + t2356 - 1 * t2344 * t2372)), 0, 0, 0;
    0, 0, 0, 0, 0, 0, 0, (0 - 0.19 * t2344), (0 - 0.19 * t2344 * t2368 + 0.209 * t2344 * t2370 - 1 * t2344 * (0 + 0.19 * t2384)), 0, 0, 0;
    0, 0, 0, 0, 0, 0, 0.049, (0 + 0.19 * t2342), (0.19 * t2342 * t2368 - 0.209 * t2342 * t2370 - 1 * t2342 * (0 - 0.19 * t2384)), 0, 0, 0]

/-- Jwb_Body_to_FrontLeftFoot.cpp:54-101, a 3 x 12 matrix -/
noncomputable def Jwb_FrontLeft (q : Fin 12 → ℝ) : Matrix (Fin 3) (Fin 12) ℝ :=
  let t1917 : ℝ := Real.cos (q 5)
  let t1925 : ℝ := Real.sin (q 4)
  let t1914 : ℝ := Real.cos (q 4)
  let t1927 : ℝ := Real.sin (q 5)
  !![0, 0, 0, (0 + t1914 * t1917 - 1 * t1925 * t1927), 0, 0, 0, 0, 0, 0, 0, 0;
    0, 0, 0, 0, (-1), (-1), 0, 0, 0, 0, 0, 0;
    0, 0, 0, (0 - 1 * t1917 * t1925 - 1 * t1914 * t1927), 0, 0, 0, 0, 0, 0, 0, 0]

/-- Jwb_Body_to_FrontRightFoot.cpp:54-101, a 3 x 12 matrix -/
noncomputable def Jwb_FrontRight (q : Fin 12 → ℝ) : Matrix (Fin 3) (Fin 12) ℝ :=
  let t2035 : ℝ := Real.cos (q 2)
  let t2043 : ℝ := Real.sin (q 1)
  let t2032 : ℝ := Real.cos (q 1)
  let t2045 : ℝ := Real.sin (q 2)
  !![(0 + t2032 * t2035 - 1 * t2043 * t2045), 0, 0, 0, 0, 0, 0, 0, 0, 0, 0, 0;
    0, (-1), (-1), 0, 0, 0, 0, 0, 0, 0, 0, 0;
    (0 - 1 * t2035 * t2043 - 1 * t2032 * t2045), 0, 0, 0, 0, 0, 0, 0, 0, 0, 0, 0]

/-- Jwb_Body_to_HindLeftFoot.cpp:54-101, a 3 x 12 matrix -/
noncomputable def Jwb_HindLeft (q : Fin 12 → ℝ) : Matrix (Fin 3) (Fin 12) ℝ :=
  let t2153 : ℝ := Real.cos (q 11)
  let t2161 : ℝ := Real.sin (q 10)
  let t2150 : ℝ := Real.cos (q 10)
  let t2163 : ℝ := Real.sin (q 11)
  !![0, 0, 0, 0, 0, 0, 0, 0, 0, (0 + t2150 * t2153 - 1 * t2161 * t2163), 0, 0;
    0, 0, 0, 0, 0, 0, 0, 0, 0, 0, (-1), (-1);
    0, 0, 0, 0, 0, 0, 0, 0, 0, (0 - 1 * t2153 * t2161 - 1 * t2150 * t2163), 0, 0]

/-- Jwb_Body_to_HindRightFoot.cpp:54-101, a 3 x 12 matrix -/
noncomputable def Jwb_HindRight (q : Fin 12 → ℝ) : Matrix (Fin 3) (Fin 12) ℝ :=
  let t2271 : ℝ := Real.cos (q 8)
  let t2279 : ℝ := Real.sin (q 7)
  let t2268 : ℝ := Real.cos (q 7)
  let t2281 : ℝ := Real.sin (q 8)
  !![0, 0, 0, 0, 0, 0, (0 + t2268 * t2271 - 1 * t2279 * t2281), 0, 0, 0, 0, 0;
    0, 0, 0, 0, 0, 0, 0, (-1), (-1), 0, 0, 0;
    0, 0, 0, 0, 0, 0, (0 - 1 * t2271 * t2279 - 1 * t2268 * t2281), 0, 0, 0, 0, 0]

/-- Jws_Body_to_FrontLeftFoot.cpp:54-105, a 3 x 12 matrix -/
noncomputable def Jws_FrontLeft (q : Fin 12 → ℝ) : Matrix (Fin 3) (Fin 12) ℝ :=
  let t1971 : ℝ := Real.cos (q 3)
  let t1976 : ℝ := -1 * t1971
  let t1979 : ℝ := 0 + t1976
  let t1981 : ℝ := Real.sin (q 3)
  let t1986 : ℝ := -1 * t1981
  let t1987 : ℝ := 0 + t1986
  !![0, 0, 0, 1, 0, 0, 0, 0, 0, 0, 0, 0;
    0, 0, 0, 0, t1979, t1979, 0, 0, 0, 0, 0, 0;
    0, 0, 0, 0, t1987, t1987, 0, 0, 0, 0, 0, 0]

/-- Jws_Body_to_FrontRightFoot.cpp:54-105, a 3 x 12 matrix -/
noncomputable def Jws_FrontRight (q : Fin 12 → ℝ) : Matrix (Fin 3) (Fin 12) ℝ :=
  let t2089 : ℝ := Real.cos (q 0)
  let t2094 : ℝ := -1 * t2089
  let t2097 : ℝ := 0 + t2094
  let t2099 : ℝ := Real.sin (q 0)
  let t2104 : ℝ := -1 * t2099
  let t2105 : ℝ := 0 + t2104
  !![1, 0, 0, 0, 0, 0, 0, 0, 0, 0, 0, 0;
    0, t2097, t2097, 0, 0, 0, 0, 0, 0, 0, 0, 0;
    0, t2105, t2105, 0, 0, 0, 0, 0, 0, 0, 0, 0]

/-- Jws_Body_to_HindLeftFoot.cpp:54-105, a 3 x 12 matrix -/
noncomputable def Jws_HindLeft (q : Fin 12 → ℝ) : Matrix (Fin 3) (Fin 12) ℝ :=
  let t2207 : ℝ := Real.cos (q 9)
  let t2212 : ℝ := -1 * t2207
  let t2215 : ℝ := 0 + t2212
  let t2217 : ℝ := Real.sin (q 9)
  let t2222 : ℝ := -1 * t2217
  let t2223 : ℝ := 0 + t2222
  !![0, 0, 0, 0, 0, 0, 0, 0, 0, 1, 0, 0;
    0, 0, 0, 0, 0, 0, 0, 0, 0, 0, t2215, t2215;
    0, 0, 0, 0, 0, 0, 0, 0, 0, 0, t2223, t2223]

/-- Jws_Body_to_HindRightFoot.cpp:54-105, a 3 x 12 matrix -/
noncomputable def Jws_HindRight (q : Fin 12 → ℝ) : Matrix (Fin 3) (Fin 12) ℝ :=
  let t2325 : ℝ := Real.cos (q 6)
  let t2330 : ℝ := -1 * t2325
  let t2333 : ℝ := 0 + t2330
  let t2335 : ℝ := Real.sin (q 6)
  let t2340 : ℝ := -1 * t2335
  let t2341 : ℝ := 0 + t2340
  !![0, 0, 0, 0, 0, 0, 1, 0, 0, 0, 0, 0;
    0, 0, 0, 0, 0, 0, 0, t2333, t2333, 0, 0, 0;
    0, 0, 0, 0, 0, 0, 0, t2341, t2341, 0, 0, 0]

/-- R_Body_to_FrontLeftFoot.cpp:54-78, a 3 x 3 matrix -/
noncomputable def R_FrontLeft (q : Fin 12 → ℝ) : Matrix (Fin 3) (Fin 3) ℝ :=
  let t725 : ℝ := Real.cos (q 5)
  let t741 : ℝ := Real.sin (q 4)
  let t717 : ℝ := Real.cos (q 4)
  let t751 : ℝ := Real.sin (q 3)
  let t744 : ℝ := Real.sin (q 5)
  let t759 : ℝ := Real.cos (q 3)
  !![(0 + t717 * t725 - 1 * t741 * t744), 0, (0 - 1 * t725 * t741 - 1 * t717 * t744);
    (0 - 1 * t725 * t741 * t751 - 1 * t717 * t744 * t751), (0 + t759), (0 - 1 * t717 * t725 * t751 + t741 * t744 * t751);
    (0 + t725 * t741 * t759 + t717 * t744 * t759), (0 + t751), (0 + t717 * t725 * t759 - 1 * t741 * t744 * t759)]

/-- R_Body_to_FrontRightFoot.cpp:54-78, a 3 x 3 matrix -/
noncomputable def R_FrontRight (q : Fin 12 → ℝ) : Matrix (Fin 3) (Fin 3) ℝ :=
  let t843 : ℝ := Real.cos (q 2)
  let t859 : ℝ := Real.sin (q 1)
  let t835 : ℝ := Real.cos (q 1)
  let t869 : ℝ := Real.sin (q 0)
  let t862 : ℝ := Real.sin (q 2)
  let t877 : ℝ := Real.cos (q 0)
  !![(0 + t835 * t843 - 1 * t859 * t862), 0, (0 - 1 * t843 * t859 - 1 * t835 * t862);
    (0 - 1 * t843 * t859 * t869 - 1 * t835 * t862 * t869), (0 + t877), (0 - 1 * t835 * t843 * t869 + t859 * t862 * t869);
    (0 + t843 * t859 * t877 + t835 * t862 * t877), (0 + t869), (0 + t835 * t843 * t877 - 1 * t859 * t862 * t877)]

/-- R_Body_to_HindLeftFoot.cpp:54-78, a 3 x 3 matrix -/
noncomputable def R_HindLeft (q : Fin 12 → ℝ) : Matrix (Fin 3) (Fin 3) ℝ :=
  let t961 : ℝ := Real.cos (q 11)
  let t977 : ℝ := Real.sin (q 10)
  let t953 : ℝ := Real.cos (q 10)
  let t987 : ℝ := Real.sin (q 9)
  let t980 : ℝ := Real.sin (q 11)
  let t995 : ℝ := Real.cos (q 9)
  !![(0 + t953 * t961 - 1 * t977 * t980), 0, (0 - 1 * t961 * t977 - 1 * t953 * t980);
    (0 - 1 * t961 * t977 * t987 - 1 * t953 * t980 * t987), (0 + t995), (0 - 1 * t953 * t961 * t987 + t977 * t980 * t987);
    (0 + t961 * t977 * t995 + t953 * t980 * t995), (0 + t987), (0 + t953 * t961 * t995 - 1 * t977 * t980 * t995)]

/-- R_Body_to_HindRightFoot.cpp:54-78, a 3 x 3 matrix -/
noncomputable def R_HindRight (q : Fin 12 → ℝ) : Matrix (Fin 3) (Fin 3) ℝ :=
  let t1079 : ℝ := Real.cos (q 8)
  let t1095 : ℝ := Real.sin (q 7)
  let t1071 : ℝ := Real.cos (q 7)
  let t1105 : ℝ := Real.sin (q 6)
  let t1098 : ℝ := Real.sin (q 8)
  let t1113 : ℝ := Real.cos (q 6)
  !![(0 + t1071 * t1079 - 1 * t1095 * t1098), 0, (0 - 1 * t1079 * t1095 - 1 * t1071 * t1098);
    (0 - 1 * t1079 * t1095 * t1105 - 1 * t1071 * t1098 * t1105), (0 + t1113), (0 - 1 * t1071 * t1079 * t1105 + t1095 * t1098 * t1105);
    (0 + t1079 * t1095 * t1113 + t1071 * t1098 * t1113), (0 + t1105), (0 + t1071 * t1079 * t1113 - 1 * t1095 * t1098 * t1113)]

/-- p_Body_to_FrontLeftFoot.cpp:54-101, a 3 x 1 matrix -/
noncomputable def p_FrontLeft (q : Fin 12 → ℝ) : Matrix (Fin 3) (Fin 1) ℝ :=
  let t745 : ℝ := Real.cos (q 4)
  let t767 : ℝ := Real.cos (q 5)
  let t769 : ℝ := -1 * t767
  let t771 : ℝ := 1 + t769
  let t774 : ℝ := Real.sin (q 5)
  let t779 : ℝ := Real.sin (q 4)
  let t796 : ℝ := Real.cos (q 3)
  let t801 : ℝ := Real.sin (q 3)
  let t772 : ℝ := 0.19 * t771
  let t775 : ℝ := -0.209 * t774
  let t776 : ℝ := 0 + t772 + t775
  let t780 : ℝ := -0.209 * t771
  let t781 : ℝ := -0.19 * t774
  let t782 : ℝ := 0 + t780 + t781
  let t802 : ℝ := -0.19 * t779
  let t803 : ℝ := 0 + t802
  !![(0 + 0.19 * (1 - 1 * t745) + t745 * t776 - 0.4165 * (-1 * t745 * t774 - 1 * t767 * t779) + 0.19 * (t745 * t767 - 1 * t774 * t779) - 1 * t779 * t782);
    (0 + 0.049 * (1 - 1 * t796) + 0.111 * t796 - 1 * t776 * t779 * t801 - 1 * t745 * t782 * t801 + 0.19 * (-1 * t745 * t774 * t801 - 1 * t767 * t779 * t801) - 0.4165 * (-1 * t745 * t767 * t801 + t774 * t779 * t801) - 1 * t801 * t803);
    (0 + t776 * t779 * t796 + t745 * t782 * t796 + 0.19 * (t745 * t774 * t796 + t767 * t779 * t796) - 0.4165 * (t745 * t767 * t796 - 1 * t774 * t779 * t796) + 0.062 * t801 + t796 * t803)]

/-- p_Body_to_FrontRightFoot.cpp:54-101, a 3 x 1 matrix -/
noncomputable def p_FrontRight (q : Fin 12 → ℝ) : Matrix (Fin 3) (Fin 1) ℝ :=
  let t863 : ℝ := Real.cos (q 1)
  let t885 : ℝ := Real.cos (q 2)
  let t887 : ℝ := -1 * t885
  let t889 : ℝ := 1 + t887
  let t892 : ℝ := Real.sin (q 2)
  let t897 : ℝ := Real.sin (q 1)
  let t914 : ℝ := Real.cos (q 0)
  let t919 : ℝ := Real.sin (q 0)
  let t890 : ℝ := 0.19 * t889
  let t893 : ℝ := -0.209 * t892
  let t894 : ℝ := 0 + t890 + t893
  let t898 : ℝ := -0.209 * t889
  let t899 : ℝ := -0.19 * t892
  let t900 : ℝ := 0 + t898 + t899
  let t920 : ℝ := -0.19 * t897
  let t921 : ℝ := 0 + t920
  !![(0 + 0.19 * (1 - 1 * t863) + t863 * t894 - 0.4165 * (-1 * t863 * t892 - 1 * t885 * t897) + 0.19 * (t863 * t885 - 1 * t892 * t897) - 1 * t897 * t900);
    (0 - 0.049 * (1 - 1 * t914) - 0.111 * t914 - 1 * t894 * t897 * t919 - 1 * t863 * t900 * t919 + 0.19 * (-1 * t863 * t892 * t919 - 1 * t885 * t897 * t919) - 0.4165 * (-1 * t863 * t885 * t919 + t892 * t897 * t919) - 1 * t919 * t921);
    (0 + t894 * t897 * t914 + t863 * t900 * t914 + 0.19 * (t863 * t892 * t914 + t885 * t897 * t914) - 0.4165 * (t863 * t885 * t914 - 1 * t892 * t897 * t914) - 0.062 * t919 + t914 * t921)]

/-- p_Body_to_HindLeftFoot.cpp:54-92, a 3 x 1 matrix -/
noncomputable def p_HindLeft (q : Fin 12 → ℝ) : Matrix (Fin 3) (Fin 1) ℝ :=
  let t981 : ℝ := Real.cos (q 10)
  let t1003 : ℝ := Real.cos (q 11)
  let t1005 : ℝ := -1 * t1003
  let t1007 : ℝ := 1 + t1005
  let t1010 : ℝ := Real.sin (q 11)
  let t1015 : ℝ := Real.sin (q 10)
  let t1032 : ℝ := Real.cos (q 9)
  let t1037 : ℝ := Real.sin (q 9)
  let t1008 : ℝ := -0.19 * t1007
  let t1011 : ℝ := -0.209 * t1010
  let t1012 : ℝ := 0 + t1008 + t1011
  let t1016 : ℝ := -0.209 * t1007
  let t1017 : ℝ := 0.19 * t1010
  let t1018 : ℝ := 0 + t1016 + t1017
  let t1038 : ℝ := 0.19 * t1015
  let t1039 : ℝ := 0 + t1038
  !![(0 - 1 * t1015 * t1018 - 0.19 * (1 - 1 * t981) + t1012 * t981 - 0.19 * (-1 * t1010 * t1015 + t1003 * t981) - 0.4165 * (-1 * t1003 * t1015 - 1 * t1010 * t981));
    (0 + 0.049 * (1 - 1 * t1032) + 0.111 * t1032 - 1 * t1012 * t1015 * t1037 - 1 * t1037 * t1039 - 1 * t1018 * t1037 * t981 - 0.4165 * (t1010 * t1015 * t1037 - 1 * t1003 * t1037 * t981) - 0.19 * (-1 * t1003 * t1015 * t1037 - 1 * t1010 * t1037 * t981));
    (0 + t1012 * t1015 * t1032 + 0.062 * t1037 + t1032 * t1039 + t1018 * t1032 * t981 - 0.4165 * (-1 * t1010 * t1015 * t1032 + t1003 * t1032 * t981) - 0.19 * (t1003 * t1015 * t1032 + t1010 * t1032 * t981))]

/-- p_Body_to_HindRightFoot.cpp:54-103, a 3 x 1 matrix -/
noncomputable def p_HindRight (q : Fin 12 → ℝ) : Matrix (Fin 3) (Fin 1) ℝ :=
  let t1099 : ℝ := Real.cos (q 7)
  let t1121 : ℝ := Real.cos (q 8)
  let t1123 : ℝ := -1 * t1121
  let t1125 : ℝ := 1 + t1123
  let t1128 : ℝ := Real.sin (q 8)
  let t1133 : ℝ := Real.sin (q 7)
  let t1150 : ℝ := Real.cos (q 6)
  let t1155 : ℝ := Real.sin (q 6)
  let t1126 : ℝ := -0.19 * t1125
  let t1129 : ℝ := -0.209 * t1128
  let t1130 : ℝ := 0 + t1126 + t1129
  let t1134 : ℝ := -0.209 * t1125
  let t1135 : ℝ := 0.19 * t1128
  let t1136 : ℝ := 0 + t1134 + t1135
  let t1156 : ℝ := 0.19 * t1133
  let t1157 : ℝ := 0 + t1156
  !![(0 - 0.19 * (1 - 1 * t1099) + t1099 * t1130 - 0.4165 * (-1 * t1099 * t1128 - 1 * t1121 * t1133) - 0.19 * (t1099 * t1121 - 1 * t1128 * t1133) - 1 * t1133 * t1136);
    (0 - 0.049 * (1 - 1 * t1150) - 0.111 * t1150 - 1 * t1130 * t1133 * t1155 - 1 * t1099 * t1136 * t1155 - 0.19 * (-1 * t1099 * t1128 * t1155 - 1 * t1121 * t1133 * t1155) - 0.4165 * (-1 * t1099 * t1121 * t1155 + t1128 * t1133 * t1155) - 1 * t1155 * t1157);
    (0 + t1130 * t1133 * t1150 + t1099 * t1136 * t1150 - 0.19 * (t1099 * t1128 * t1150 + t1121 * t1133 * t1150) - 0.4165 * (t1099 * t1121 * t1150 - 1 * t1128 * t1133 * t1150) - 0.062 * t1155 + t1150 * t1157)]

end Drift.Cheetah
